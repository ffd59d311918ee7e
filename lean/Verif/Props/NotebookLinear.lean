import Verif.Proof.NotebookFinite
import Verif.Proof.NotebookLinear
import Verif.Props.LinearModel
import Verif.Props.MassModel
import Verif.Props.SpeedLinear

/-!
Property C96 (notebooks on linear tracking and on the chain of masses).  Motions and costs are in `Spec/TrackModels.lean` and
`Spec/MassModel.lean`.
-/

namespace Verif

open Matrix

/-- The results of the sequential cells in terms of the generated problem. -/
theorem linSeqCells_spec (rnd : ℕ → ℝ) (N : ℕ) (hN : 0 < N) :
    ∃ (pts : ℕ → Fin 2 → ℝ) (P : LQT 4 2 ℝ) (bw : BwResult 4 2 ℝ) (w : ℕ → Fin 2 → ℝ) (z : ℕ → Fin 4 → ℝ) (Q : TFLQT 4 2 2 4 ℝ),
      linSeqCells rnd N = .ok ⟨(List.range N).map pts, P.raw, z 0, (List.range (10 * N + 1)).map z, (List.range (10 * N)).map w,
        colsArr ((List.range N).map pts), colsArr ((List.range (10 * N + 1)).map z), npLinspace 0 N (10 * N),
        colsArr ((List.range (10 * N)).map w)⟩ ∧
      (Q.Convex ∧ P.raw.npToTf 4 2 2 4 = .ok Q ∧ Q.toLQT = P ∧ P.stages.length = 10 * N) ∧
      (P.parBackwardPass = .ok bw ∧ P.seqBackwardPass = .ok bw ∧
        P.seqForwardPass (z 0) bw.Kx_list bw.d_list = .ok ((List.range (10 * N)).map w, (List.range (10 * N + 1)).map z) ∧
        P.parForwardPass (z 0) bw.Kx_list bw.d_list = .ok ((List.range (10 * N)).map w, (List.range (10 * N + 1)).map z) ∧
        P.parFwdBwdPass (z 0) bw = .ok ((List.range (10 * N)).map w, (List.range (10 * N + 1)).map z)) ∧
      (linGenData rnd N = .ok ((List.range N).map pts) ∧ pts 0 = ![5, 5] ∧ (∀ k < N, ∀ i, 0.5 < pts k i ∧ pts k i < 9.5) ∧
        ∀ k, k + 1 < N → (pts (k + 1) 0 - pts k 0) ^ 2 + (pts (k + 1) 1 - pts k 1) ^ 2 = 1) ∧
      z 0 = ![pts 0 0, pts 0 1, 0, 0] ∧ (∀ k < 10 * N, CVStep (1 / 10) (w k) (z k) (z (k + 1))) ∧
      ∀ (w' : ℕ → Fin 2 → ℝ) (z' : ℕ → Fin 4 → ℝ), z' 0 = z 0 → (∀ k < 10 * N, CVStep (1 / 10) (w' k) (z' k) (z' (k + 1))) →
        trackCost pts 10 N w z ≤ trackCost pts 10 N w' z' ∧
        (trackCost pts 10 N w' z' = trackCost pts 10 N w z → ∀ k < 10 * N, w' k = w k) := by
  obtain ⟨pts, g1, g2, g3, g4⟩ := (C74_genData rnd N).2 hN
  obtain ⟨P, x0, bw, w, z, h1, h2, -, ⟨b1, b2, b3, b4, b5, -⟩, h3, h4, h5⟩ := C74_optimal pts 10 N (by norm_num) hN
  obtain ⟨xy, lqt, x0', Q, i1, i2, i3, i4, i5, i6, -⟩ := (C80_tracking_item rnd (10 * N)).2 (by omega)
  rw [show 10 * N / 10 = N by omega] at i1 i5
  rw [g1] at i1
  injection i1 with i1
  rw [← i1] at i2
  have h1' : linGetLQT ((List.range N).map pts) 10 = .ok (P.raw, x0) := h1
  rw [h1', Except.ok.injEq, Prod.mk.injEq] at i2
  have hPl : P = lqt := by
    have := congrArg (RawLQT.typed 4 2) i2.1
    rw [typed_raw, typed_raw] at this
    exact Except.ok.inj this
  subst hPl h3
  have hQ : P.raw.npToTf 4 2 2 4 = .ok Q := by
    have hp : ∀ s ∈ P.stages, s.Plain := by
      rw [← i3]
      intro s hs
      obtain ⟨t, -, rfl⟩ := List.mem_map.1 hs
      exact ⟨rfl, rfl, rfl⟩
    exact ((C80_convert P Q).2.2 hp).2 i3
  have hlen : P.stages.length = 10 * N := by
    rw [← i5, ← i3]
    simp [TFLQT.toLQT]
  norm_num at h4 h5
  refine ⟨pts, P, bw, w, z, Q, ?_, ⟨i6, hQ, i3, hlen⟩, ⟨b1, b2, b3, b4, b5⟩, ⟨g1, g2, g3, g4⟩, h2, ?_, ?_⟩
  · unfold linSeqCells
    rw [g1, py_ok_bind, h1', py_ok_bind]
    dsimp only
    rw [typed_raw, py_ok_bind, b2, py_ok_bind, b3, py_ok_bind]
    refine congrArg Except.ok ?_
    simp [colsArr]
  · norm_num
    exact h4
  · norm_num
    exact h5

/-- C96 (sequential cells): without points `genData` raises `IndexError`; otherwise the cells complete. The first file has the points,
which start in the middle, as columns, the second file the states at the times `k / 10`, which start at rest in the first point; the
controls are the unique minimiser of the tracking cost. -/
theorem C96_sequential (rnd : ℕ → ℝ) (N : ℕ) : (N = 0 → linSeqCells rnd N = .error .indexError) ∧
    (0 < N → ∃ (s : LinSeq) (pts : ℕ → Fin 2 → ℝ) (w : ℕ → Fin 2 → ℝ) (z : ℕ → Fin 4 → ℝ), linSeqCells rnd N = .ok s ∧
      (linGenData rnd N = .ok s.xy ∧ s.xy = (List.range N).map pts ∧ s.x_list = (List.range (10 * N + 1)).map z ∧
        s.u_list = (List.range (10 * N)).map w) ∧
      (s.xy_txt.rows = 2 ∧ s.xy_txt.cols = N ∧ ∀ i j, s.xy_txt.data i j = pts j (Fin.ofNat 2 i)) ∧
      (s.x_seq_txt.rows = 4 ∧ s.x_seq_txt.cols = 10 * N + 1 ∧ ∀ i j, s.x_seq_txt.data i j = z j (Fin.ofNat 4 i)) ∧
      (s.u_plot.rows = 2 ∧ s.u_plot.cols = 10 * N ∧ ∀ i j, s.u_plot.data i j = w j (Fin.ofNat 2 i)) ∧
      z 0 = ![5, 5, 0, 0] ∧ (∀ k < 10 * N, CVStep (1 / 10) (w k) (z k) (z (k + 1))) ∧
      ∀ (w' : ℕ → Fin 2 → ℝ) (z' : ℕ → Fin 4 → ℝ), z' 0 = ![5, 5, 0, 0] → (∀ k < 10 * N, CVStep (1 / 10) (w' k) (z' k) (z' (k + 1))) →
        trackCost pts 10 N w z ≤ trackCost pts 10 N w' z' ∧
        (trackCost pts 10 N w' z' = trackCost pts 10 N w z → ∀ k < 10 * N, w' k = w k)) := by
  refine ⟨fun h => ?_, fun hN => ?_⟩
  · unfold linSeqCells
    rw [(C74_genData rnd N).1 h]
    rfl
  · obtain ⟨pts, P, bw, w, z, Q, h1, -, -, ⟨g1, g2, -⟩, h2, h3, h4⟩ := linSeqCells_spec rnd N hN
    have hz : z 0 = ![5, 5, 0, 0] := by rw [h2, g2]; rfl
    rw [hz] at h4
    refine ⟨_, pts, w, z, h1, ⟨g1, rfl, rfl, rfl⟩, ⟨rfl, by simp [colsArr], fun i j => ?_⟩, ⟨rfl, by simp [colsArr], fun i j => ?_⟩,
      ⟨rfl, by simp [colsArr], fun i j => ?_⟩, hz, h3, h4⟩
    · have hi : Fin.ofNat 2 i.val = i := Fin.ext (Nat.mod_eq_of_lt i.2)
      rw [hi]
      simp [colsArr]
    · have hi : Fin.ofNat 4 i.val = i := Fin.ext (Nat.mod_eq_of_lt i.2)
      rw [hi]
      simp [colsArr]
    · have hi : Fin.ofNat 2 i.val = i := Fin.ext (Nat.mod_eq_of_lt i.2)
      rw [hi]
      simp [colsArr]

/-- C96 (printed differences): for up to 1000 points all differences of states and controls printed by the notebook are zero in exact
arithmetic: those of both parallel solutions in NumPy, of the sequential and both parallel solutions in TensorFlow. -/
theorem C96_differences (scan : AScan) (hs : ∀ α, IsAssocScan (scan α)) (rnd : ℕ → ℝ) (N : ℕ) (hN : 0 < N) (hN' : N ≤ 1000) :
    ∃ s, linSeqCells rnd N = .ok s ∧ linParCells s = .ok ((0, 0), (0, 0)) ∧ linTfSeqCell s = .ok (0, 0) ∧
      linTfParCell scan s = .ok ((0, 0), (0, 0)) ∧ linDemo scan rnd N = .ok (s, List.replicate 7 (0, 0)) := by
  obtain ⟨pts, P, bw, w, z, Q, h1, ⟨hQc, hQ, hQP, hlen⟩, ⟨b1, b2, b3, b4, b5⟩, -⟩ := linSeqCells_spec rnd N hN
  have hQl : Q.stages.length = 10 * N := by
    rw [← hlen, ← hQP]
    simp [TFLQT.toLQT]
  obtain ⟨r, xs, us, J, k1, k2, k3, k4, k5, -⟩ := C30_convex Q hQc (by intro h; rw [h] at hQl; simp at hQl; omega) (scan _) (hs _)
    (scan _) (hs _) (z 0)
  have hr := (C30_seq_backward Q hQc.toSym r).1 k2
  have hf := C30_fwdbwd Q hQc.toSym (scan _) (hs _) r hr (z 0) xs us k5
  rw [hQP] at hr hf
  rw [hr] at b2
  injection b2 with b2
  subst b2
  rw [hf] at b3
  injection b3 with b3
  injection b3 with e1 e2
  subst e1 e2
  have hg : tfGains Q.stages r.Kx_list r.d_list = Q.fwdData r := rfl
  obtain ⟨m1, m2, m3⟩ := C54_lqt (scan _) (scan _) 10000 Q (z 0) r (Q.fwdData r) (by norm_num) (by omega)
    (le_trans (show (Q.fwdData r).length ≤ Q.stages.length by simp [TFLQT.fwdData]) (by omega))
  set s : LinSeq := ⟨(List.range N).map pts, P.raw, z 0, (List.range (10 * N + 1)).map z, (List.range (10 * N)).map w,
    colsArr ((List.range N).map pts), colsArr ((List.range (10 * N + 1)).map z), npLinspace 0 N (10 * N),
    colsArr ((List.range (10 * N)).map w)⟩ with hsdef
  have hd : linDiff s ((List.range (10 * N + 1)).map z) ((List.range (10 * N)).map w) = .ok (0, 0) := by
    unfold linDiff
    rw [tfMaxAbs_self _ (by rw [Ne, ← List.length_eq_zero_iff]; simp), py_ok_bind,
      tfMaxAbs_self _ (by rw [Ne, ← List.length_eq_zero_iff]; simp; omega), py_ok_bind]
    rfl
  have hp : linParCells s = .ok ((0, 0), (0, 0)) := by
    unfold linParCells
    rw [typed_raw, py_ok_bind, b1, py_ok_bind, b4, py_ok_bind, b5, py_ok_bind, hd, py_ok_bind]
    rfl
  have ht : linTfSeqCell s = .ok (0, 0) := by
    unfold linTfSeqCell
    rw [hQ, py_ok_bind, k2, py_ok_bind, hg, k3, py_ok_bind]
    exact hd
  have hq : linTfParCell scan s = .ok ((0, 0), (0, 0)) := by
    unfold linTfParCell
    rw [hQ, py_ok_bind, m1, k1, py_ok_bind, hg, m3, k4, py_ok_bind, hd, py_ok_bind, py_ok_bind, m1, k1, py_ok_bind, m2, k5,
      py_ok_bind, hd]
    rfl
  refine ⟨s, h1, hp, ht, hq, ?_⟩
  unfold linDemo
  rw [h1, py_ok_bind, hp, py_ok_bind, ht, py_ok_bind, hq, py_ok_bind]
  rfl


/-- The largest absolute difference of the entries of two lists of vectors. -/
def IsMaxDist {n : ℕ} (a b : List (Fin n → ℝ)) (e : ℝ) : Prop :=
  IsGreatest {d : ℝ | ∃ (k : ℕ) (x y : Fin n → ℝ) (i : Fin n), a[k]? = some x ∧ b[k]? = some y ∧ d = |x i - y i|} e

/-- C96 (what the cells compare): for every earlier state of the notebook, also one with other states and controls, the printed pairs are the
largest differences of the states and of the controls of each pass to those states and controls. -/
theorem C96_compare (scan : AScan) (s : LinSeq) :
    (∀ d1 d2, linParCells s = .ok (d1, d2) → ∃ P r u1 x1 u2 x2, s.lqt.typed 4 2 = .ok P ∧ P.parBackwardPass = .ok r ∧
      P.parForwardPass s.x0 r.Kx_list r.d_list = .ok (u1, x1) ∧ P.parFwdBwdPass s.x0 r = .ok (u2, x2) ∧
      IsMaxDist x1 s.x_list d1.1 ∧ IsMaxDist u1 s.u_list d1.2 ∧ IsMaxDist x2 s.x_list d2.1 ∧ IsMaxDist u2 s.u_list d2.2) ∧
    (∀ d, linTfSeqCell s = .ok d → ∃ P r x u, s.lqt.npToTf 4 2 2 4 = .ok P ∧ P.seqBackward = .ok r ∧
      lqtTfSeqForward s.x0 (tfGains P.stages r.Kx_list r.d_list) = .ok (x, u) ∧ IsMaxDist x s.x_list d.1 ∧ IsMaxDist u s.u_list d.2) ∧
    (∀ d1 d2, linTfParCell scan s = .ok (d1, d2) → ∃ P r x1 u1 x2 u2, s.lqt.npToTf 4 2 2 4 = .ok P ∧ P.parBackwardMp (scan _) 10000 = .ok r ∧
      lqtTfParForwardMp (scan _) 10000 s.x0 (tfGains P.stages r.Kx_list r.d_list) = .ok (x1, u1) ∧
      P.parFwdBwdMp (scan _) 10000 s.x0 r = .ok (x2, u2) ∧
      IsMaxDist x1 s.x_list d1.1 ∧ IsMaxDist u1 s.u_list d1.2 ∧ IsMaxDist x2 s.x_list d2.1 ∧ IsMaxDist u2 s.u_list d2.2) := by
  have key : ∀ x u d, linDiff s x u = .ok d → IsMaxDist x s.x_list d.1 ∧ IsMaxDist u s.u_list d.2 := fun x u d h => by
    unfold linDiff at h
    obtain ⟨a, h1, h⟩ := bind_ok.1 h
    obtain ⟨b, h2, h⟩ := bind_ok.1 h
    cases h
    exact ⟨tfMaxAbs_greatest h1, tfMaxAbs_greatest h2⟩
  refine ⟨fun d1 d2 h => ?_, fun d h => ?_, fun d1 d2 h => ?_⟩
  · unfold linParCells at h
    obtain ⟨P, h1, h⟩ := bind_ok.1 h
    obtain ⟨r, h2, h⟩ := bind_ok.1 h
    obtain ⟨⟨u1, x1⟩, h3, h⟩ := bind_ok.1 h
    obtain ⟨⟨u2, x2⟩, h4, h⟩ := bind_ok.1 h
    obtain ⟨a, h5, h⟩ := bind_ok.1 h
    obtain ⟨b, h6, h⟩ := bind_ok.1 h
    cases h
    obtain ⟨k1, k2⟩ := key _ _ _ h5
    obtain ⟨k3, k4⟩ := key _ _ _ h6
    exact ⟨P, r, u1, x1, u2, x2, h1, h2, h3, h4, k1, k2, k3, k4⟩
  · unfold linTfSeqCell at h
    obtain ⟨P, h1, h⟩ := bind_ok.1 h
    obtain ⟨r, h2, h⟩ := bind_ok.1 h
    obtain ⟨⟨x, u⟩, h3, h⟩ := bind_ok.1 h
    obtain ⟨k1, k2⟩ := key _ _ _ h
    exact ⟨P, r, x, u, h1, h2, h3, k1, k2⟩
  · unfold linTfParCell at h
    obtain ⟨P, h1, h⟩ := bind_ok.1 h
    obtain ⟨r, h2, h⟩ := bind_ok.1 h
    obtain ⟨⟨x1, u1⟩, h3, h⟩ := bind_ok.1 h
    obtain ⟨a, h5, h⟩ := bind_ok.1 h
    simp only [h1, h2, py_ok_bind] at h
    obtain ⟨⟨x2, u2⟩, h4, h⟩ := bind_ok.1 h
    obtain ⟨b, h6, h⟩ := bind_ok.1 h
    cases h
    obtain ⟨k1, k2⟩ := key _ _ _ h5
    obtain ⟨k3, k4⟩ := key _ _ _ h6
    exact ⟨P, r, x1, u1, x2, u2, h1, h2, h3, h4, k1, k2, k3, k4⟩

/-- C96 (times of the controls): the plot of the controls uses `10 N` times from `0` to `N`; control `k` starts at the time `k / 10`,
but from the second on it is plotted later, the last one by `1 / 10`. -/
theorem C96_times (rnd : ℕ → ℝ) (N : ℕ) (hN : 0 < N) : ∃ s, linSeqCells rnd N = .ok s ∧ s.times.length = 10 * N ∧
    s.u_plot.cols = 10 * N ∧ (∀ k < 10 * N, s.times[k]? = some ((k : ℝ) * ((N : ℝ) / (10 * N - 1)))) ∧
    (∀ (k : ℕ) (t : ℝ), s.times[k]? = some t → (t = k / 10 ↔ k = 0) ∧ (k : ℝ) / 10 ≤ t) ∧ s.times[10 * N - 1]? = some (N : ℝ) ∧
    (((10 * N - 1 : ℕ) : ℝ) / 10 = N - 1 / 10) := by
  obtain ⟨pts, P, bw, w, z, Q, h1, -⟩ := linSeqCells_spec rnd N hN
  have hc : ((10 * N - 1 : ℕ) : ℝ) = 10 * N - 1 := by
    rw [Nat.cast_sub (by omega)]
    norm_num
  have hN' : (1 : ℝ) ≤ N := by exact_mod_cast hN
  have hpos : (0 : ℝ) < 10 * N - 1 := by linarith
  have hget : ∀ k < 10 * N, (npLinspace 0 (N : ℝ) (10 * N))[k]? = some ((k : ℝ) * ((N : ℝ) / (10 * N - 1))) := fun k hk => by
    rw [npLinspace_get _ _ _ _ hk, hc]
    simp
  refine ⟨_, h1, npLinspace_length _ _ _, by simp [colsArr], hget, fun k t ht => ?_, ?_, by rw [hc]; ring⟩
  · dsimp only at ht
    have hk : k < 10 * N := by
      have := (List.getElem?_eq_some_iff.1 ht).1
      rwa [npLinspace_length] at this
    rw [hget k hk, Option.some.injEq] at ht
    have hne := hpos.ne'
    have e : t - k / 10 = k / (10 * (10 * N - 1)) := by
      rw [← ht, eq_div_iff (by positivity)]
      have hd : (N : ℝ) / (10 * N - 1) * (10 * N - 1) = N := div_mul_cancel₀ _ hne
      linear_combination 10 * k * hd
    have hk0 : (0 : ℝ) ≤ k := Nat.cast_nonneg k
    refine ⟨⟨fun h => ?_, fun h => ?_⟩, ?_⟩
    · rw [h, sub_self, eq_comm, div_eq_zero_iff] at e
      rcases e with e | e
      · exact_mod_cast e
      · linarith
    · rw [← ht, h]
      simp
    · have : 0 ≤ (k : ℝ) / (10 * (10 * N - 1)) := div_nonneg hk0 (by linarith)
      linarith
  · show (npLinspace 0 (N : ℝ) (10 * N))[10 * N - 1]? = some (N : ℝ)
    rw [hget _ (by omega), hc]
    field_simp

/-- `⌊10 ^ (2 + k / 9)⌋`. -/
theorem floor_logspace (k c : ℕ) (h1 : c ^ 9 ≤ 10 ^ (18 + k)) (h2 : 10 ^ (18 + k) < (c + 1) ^ 9) :
    ⌊(10 : ℝ) ^ ((2 : ℝ) + k * ((3 - 2) / ((10 : ℕ) - 1)))⌋₊ = c := by
  have e : ((10 : ℝ) ^ ((2 : ℝ) + k * ((3 - 2) / ((10 : ℕ) - 1)))) ^ 9 = 10 ^ (18 + k) := by
    rw [← Real.rpow_natCast, ← Real.rpow_mul (by norm_num), ← Real.rpow_natCast]
    congr 1
    push_cast
    ring
  rw [Nat.floor_eq_iff (by positivity)]
  constructor
  · refine le_of_pow_le_pow_left₀ (n := 9) (by norm_num) (by positivity) ?_
    rw [e]
    exact_mod_cast h1
  · refine lt_of_pow_lt_pow_left₀ 9 (by positivity) ?_
    rw [e]
    exact_mod_cast h2

/-- C96 (speed test): the list of lengths that `tracking_generator(2, 3, 10)` prints; both tests report these lengths rounded down to
multiples of ten, and the dimension four. -/
theorem C96_speed (scan : AScan) (hs : ∀ α, IsAssocScan (scan α)) (rnd : ℕ → ℝ) :
    logspaceInt 2 3 10 = [100, 129, 166, 215, 278, 359, 464, 599, 774, 1000] ∧
    linSpeedCell scan rnd = .ok (([100, 120, 160, 210, 270, 350, 460, 590, 770, 1000], List.replicate 10 4),
      ([100, 120, 160, 210, 270, 350, 460, 590, 770, 1000], List.replicate 10 4)) := by
  have hl : logspaceInt 2 3 10 = [100, 129, 166, 215, 278, 359, 464, 599, 774, 1000] := by
    unfold logspaceInt
    rw [show List.range 10 = [0, 1, 2, 3, 4, 5, 6, 7, 8, 9] from rfl]
    simp only [List.map_cons, List.map_nil]
    rw [floor_logspace 0 100 (by norm_num) (by norm_num), floor_logspace 1 129 (by norm_num) (by norm_num),
      floor_logspace 2 166 (by norm_num) (by norm_num), floor_logspace 3 215 (by norm_num) (by norm_num),
      floor_logspace 4 278 (by norm_num) (by norm_num), floor_logspace 5 359 (by norm_num) (by norm_num),
      floor_logspace 6 464 (by norm_num) (by norm_num), floor_logspace 7 599 (by norm_num) (by norm_num),
      floor_logspace 8 774 (by norm_num) (by norm_num), floor_logspace 9 1000 (by norm_num) (by norm_num)]
  refine ⟨hl, ?_⟩
  obtain ⟨⟨h1, h2, -⟩, -⟩ := C80_tracking rnd 2 3 10 10 1 (by norm_num) (by norm_num) (by norm_num) (by norm_num) scan hs
  unfold linSpeedCell
  rw [h1, py_ok_bind, h2, py_ok_bind, hl]
  rfl

/-- The printed matrix, `mass_demo.ipynb:85-94`. -/
def massPrinted : Matrix (Fin (2 * 5)) (Fin (2 * 5)) ℝ :=
  !![0, 1, 0, 0, 0, 0, 0, 0, 0, 0;
     -2, -0.4, 1, 0.2, 0, 0, 0, 0, 0, 0;
     0, 0, 0, 1, 0, 0, 0, 0, 0, 0;
     1, 0.2, -2, -0.4, 1, 0.2, 0, 0, 0, 0;
     0, 0, 0, 0, 0, 1, 0, 0, 0, 0;
     0, 0, 1, 0.2, -2, -0.4, 1, 0.2, 0, 0;
     0, 0, 0, 0, 0, 0, 0, 1, 0, 0;
     0, 0, 0, 0, 1, 0.2, -2, -0.4, 1, 0.2;
     0, 0, 0, 0, 0, 0, 0, 0, 0, 1;
     0, 0, 0, 0, 0, 0, 1, 0.2, -2, -0.4]

/-- C96 (mass notebook): without masses the constructor raises `IndexError`; otherwise the cells complete with 2000 steps of length
`0.005`. The curves are the positions of the masses and the controls at the exact times; the chain starts at rest with the first and
the middle mass displaced by one, and the controls uniquely minimise the cost. For five masses the printed matrix is that of the
notebook. -/
theorem C96_mass (N : ℕ) : (N = 0 → massDemo N = .error .indexError) ∧
    (0 < N → ∃ (d : MassDemo N) (w : ℕ → Fin 2 → ℝ) (z : ℕ → Fin (2 * N) → ℝ), massDemo N = .ok d ∧
      (d.x_list = (List.range 2001).map z ∧ d.u_list = (List.range 2000).map w) ∧
      (d.y_curves = (List.range N).map fun i => (List.range 2001).map fun k : ℕ => ((k : ℝ) * 0.005, chainY (z k) (i + 1))) ∧
      (d.u_curves = [0, 1].map fun i => (List.range 2000).map fun k : ℕ => ((k : ℝ) * 0.005, w k i)) ∧
      (∀ i, 1 ≤ i → i ≤ N → chainY (z 0) i = (if i = 1 ∨ i = N / 2 + 1 then 1 else 0) ∧ chainV (z 0) i = 0) ∧
      (∀ k < 2000, ChainStep 0.005 (w k) (z k) (z (k + 1))) ∧
      ∀ (w' : ℕ → Fin 2 → ℝ) (z' : ℕ → Fin (2 * N) → ℝ), z' 0 = z 0 → (∀ k < 2000, ChainStep 0.005 (w' k) (z' k) (z' (k + 1))) →
        chainCost 2000 w z ≤ chainCost 2000 w' z' ∧ (chainCost 2000 w' z' = chainCost 2000 w z → ∀ k < 2000, w' k = w k)) ∧
    ∃ d, massDemo 5 = .ok d ∧ d.Fc = massPrinted := by
  have key : ∀ N : ℕ, 0 < N → ∃ (w : ℕ → Fin 2 → ℝ) (z : ℕ → Fin (2 * N) → ℝ), massDemo N = .ok ⟨massFc N, (List.range 2001).map z,
      (List.range 2000).map w, (List.range N).map (fun i => (List.range 2001).map fun k : ℕ => ((k : ℝ) * 0.005, chainY (z k) (i + 1))),
      [0, 1].map fun i => (List.range 2000).map fun k : ℕ => ((k : ℝ) * 0.005, w k i)⟩ ∧
      (∀ i, 1 ≤ i → i ≤ N → chainY (z 0) i = (if i = 1 ∨ i = N / 2 + 1 then 1 else 0) ∧ chainV (z 0) i = 0) ∧
      (∀ k < 2000, ChainStep 0.005 (w k) (z k) (z (k + 1))) ∧
      ∀ (w' : ℕ → Fin 2 → ℝ) (z' : ℕ → Fin (2 * N) → ℝ), z' 0 = z 0 → (∀ k < 2000, ChainStep 0.005 (w' k) (z' k) (z' (k + 1))) →
        chainCost 2000 w z ≤ chainCost 2000 w' z' ∧ (chainCost 2000 w' z' = chainCost 2000 w z → ∀ k < 2000, w' k = w k) := by
    intro N hN
    obtain ⟨T, P, bw, w, z, ⟨t1, t2⟩, h1, ⟨-, b2, b3, -⟩, h2, h3, h4⟩ := C73_optimal _ (massInit_eq N hN) 0.005 10 (by norm_num) (by norm_num)
    have hT : T = 2000 := by
      have a : (T : ℝ) < 2001 := by linarith
      have b : (1999 : ℝ) < T := by linarith
      have a' : T < 2001 := by exact_mod_cast a
      have b' : 1999 < T := by exact_mod_cast b
      omega
    subst hT
    refine ⟨w, z, ?_, fun i hi1 hi2 => ?_, h3, by rw [h2]; exact h4⟩
    · have hts : npLinspace (0 : ℝ) 10 2001 = (List.range 2001).map fun k : ℕ => (k : ℝ) * 0.005 := by
        unfold npLinspace
        refine List.map_congr_left fun k _ => ?_
        norm_num
      have htd : (npLinspace (0 : ℝ) 10 2001).dropLast = (List.range 2000).map fun k : ℕ => (k : ℝ) * 0.005 := by
        rw [hts, List.range_succ, List.map_append]
        exact List.dropLast_concat
      have hxl : ((List.range (2000 + 1)).map z).length = 2001 := by rw [List.length_map, List.length_range]
      have hy : ((List.range (2 * N / 2)).mapM fun i => plotRow (npLinspace 0 10 2001) ((List.range (2000 + 1)).map z) (2 * i)) =
          .ok ((List.range N).map fun i => (List.range 2001).map fun k : ℕ => ((k : ℝ) * 0.005, chainY (z k) (i + 1))) := by
        rw [show 2 * N / 2 = N by omega]
        refine mapM_range_of fun i hi => ?_
        rw [plotRow_ok _ _ _ (by omega) (by rw [npLinspace_length, hxl]), hts, List.map_map, List.zip_map']
        refine congrArg Except.ok (List.map_congr_left fun k _ => ?_)
        unfold chainY
        rw [dif_pos ⟨by omega, by omega⟩]
        rfl
      have hu : ((List.range 2).mapM fun i => plotRow (npLinspace 0 10 2001).dropLast ((List.range 2000).map w) i) =
          .ok ([0, 1].map fun i => (List.range 2000).map fun k : ℕ => ((k : ℝ) * 0.005, w k i)) := by
        refine mapM_range_ok.2 ⟨rfl, fun i hi => ?_⟩
        rw [plotRow_ok _ _ i hi (by rw [htd, List.length_map, List.length_map]), htd, List.map_map, List.zip_map']
        interval_cases i
        · exact ⟨_, rfl, rfl⟩
        · exact ⟨_, rfl, rfl⟩
      unfold massDemo
      rw [massInit_eq N hN, py_ok_bind, h1, py_ok_bind]
      dsimp only
      rw [typed_raw, py_ok_bind, b2, py_ok_bind, b3, py_ok_bind]
      dsimp only
      rw [hxl, hy, py_ok_bind, hu, py_ok_bind]
      rfl
    · rw [h2]
      exact C73_x0 _ (massInit_eq N hN) i hi1 hi2
  refine ⟨fun h => ?_, fun hN => ?_, ?_⟩
  · subst h
    unfold massDemo
    rw [massInit_zero]
    rfl
  · obtain ⟨w, z, h1, h2, h3, h4⟩ := key N hN
    refine ⟨_, w, z, h1, ?_, ?_, ?_, h2, h3, h4⟩
    · dsimp only
      exact ⟨Eq.refl _, Eq.refl _⟩
    · dsimp only
    · dsimp only
  · obtain ⟨w, z, h1, -⟩ := key 5 (by norm_num)
    refine ⟨_, h1, ?_⟩
    ext i j
    unfold massPrinted massFc
    fin_cases i <;> fin_cases j <;> norm_num [massEntry]

/-- The hypotheses of `C96_differences` and `C96_speed` for the numbers of the notebook, with the scan of the model. -/
example (rnd : ℕ → ℝ) : (∃ s, linDemo (fun _ op l => scanVals op l) rnd 50 = .ok (s, List.replicate 7 (0, 0))) ∧
    ∃ T, linSpeedCell (fun _ op l => scanVals op l) rnd = .ok ((T, List.replicate 10 4), (T, List.replicate 10 4)) ∧ T[1]? = some 120 := by
  obtain ⟨s, -, -, -, -, h⟩ := C96_differences _ (fun _ => C17_scan_example) rnd 50 (by norm_num) (by norm_num)
  exact ⟨⟨s, h⟩, _, (C96_speed _ (fun _ => C17_scan_example) rnd).2, rfl⟩

/-- The case of the notebook of `C96_sequential`, `C96_times` and `C96_mass`: 501 states, the last control is plotted at the time 50,
and the third mass starts at the position one. -/
example (rnd : ℕ → ℝ) : (∃ s, linSeqCells rnd 50 = .ok s ∧ s.x_seq_txt.cols = 501) ∧
    (∃ s, linSeqCells rnd 50 = .ok s ∧ s.times[499]? = some 50) ∧ ∃ z : Fin (2 * 5) → ℝ, chainY z 3 = 1 ∧
      ∃ d, massDemo 5 = .ok d ∧ d.x_list[0]? = some z := by
  refine ⟨?_, ?_, ?_⟩
  · obtain ⟨s, pts, w, z, h1, -, -, ⟨-, h2, -⟩, -⟩ := (C96_sequential rnd 50).2 (by norm_num)
    exact ⟨s, h1, h2⟩
  · obtain ⟨s, h1, -, -, -, -, h2, -⟩ := C96_times rnd 50 (by norm_num)
    refine ⟨s, h1, h2.trans ?_⟩
    norm_num
  · obtain ⟨d, w, z, h1, ⟨h2, -⟩, -, -, h3, -⟩ := (C96_mass 5).2.1 (by norm_num)
    refine ⟨z 0, ?_, d, h1, ?_⟩
    · rw [(h3 3 (by norm_num) (by norm_num)).1, if_pos (by norm_num)]
    · rw [h2, List.getElem?_map]
      simp

end Verif
