import Verif.Proof.SpeedTest
import Verif.Props.Viterbi
import Verif.Props.FSCTF
import Verif.Props.TFLevels
import Verif.Props.Examples
import Mathlib.MeasureTheory.Measure.Lebesgue.Basic
import Mathlib.Analysis.Complex.ExponentialBounds

/-! Property C78: generated data and the speed tests of the Viterbi functions. -/

namespace Verif

variable {n q : ℕ}

section Field
variable {K : Type} [Field K] [LinearOrder K] [IsStrictOrderedRing K]

/-- C78 (one draw): for a distribution and a random number in `[0, 1)` the draw succeeds, and index `i` is drawn exactly for the
random numbers of an interval of length `p i`; otherwise it raises. -/
theorem C78_draw (p : Fin n → K) :
    ((∀ i, 0 ≤ p i) → ∑ i, p i = 1 → ∀ u, 0 ≤ u → u < 1 → ∃ i, categRnd p u = .ok i ∧ 0 < p i) ∧
    ((∀ i, 0 ≤ p i) → ∑ i, p i = 1 → ∀ i, ∃ a, 0 ≤ a ∧ a + p i ≤ 1 ∧ ∀ u, 0 ≤ u → (categRnd p u = .ok i ↔ a ≤ u ∧ u < a + p i)) ∧
    ((∃ i, p i < 0) ∨ ∑ i, p i ≠ 1 → ∀ u, categRnd p u = .error .valueError) ∧
    ((∀ i, 0 ≤ p i) → ∑ i, p i = 1 → ∀ u, 1 ≤ u → categRnd p u = .error .indexError) := by
  refine ⟨fun hp hs u hu hu1 => ?_, fun hp hs i => ?_, fun h u => categRnd_error p u h, fun hp hs u hu => ?_⟩
  · obtain ⟨i, hi⟩ := categRnd_total p hp hs u hu1
    refine ⟨i, hi, ?_⟩
    have := (categRnd_ok p hp hs u hu i).1 hi
    linarith
  · refine ⟨partialSum p i, ?_, ?_, fun u hu => categRnd_ok p hp hs u hu i⟩
    · rw [← partialSum_zero p]; exact partialSum_mono p hp (Nat.zero_le _)
    · rw [← partialSum_succ, ← hs, ← partialSum_all]; exact partialSum_mono p hp i.2
  · cases h : categRnd p u with
    | ok i =>
      have h1 := ((categRnd_ok p hp hs u (zero_le_one.trans hu) i).1 h).2
      rw [← partialSum_succ] at h1
      have h2 : partialSum p (i + 1) ≤ 1 := by rw [← hs, ← partialSum_all]; exact partialSum_mono p hp i.2
      exact absurd (h1.trans_le h2) (not_lt.2 hu)
    | error e =>
      unfold categRnd at h
      rw [if_neg (by push Not; exact hp), foldl_finRange, if_neg (by simp [hs])] at h
      split at h
      · cases h
      · cases h; rfl

/-- `C78_draw` for the numbers `1/2, 1/4, 1/4`. -/
example : (∀ i, 0 ≤ (![1 / 2, 1 / 4, 1 / 4] : Fin 3 → ℚ) i) ∧ ∑ i, (![1 / 2, 1 / 4, 1 / 4] : Fin 3 → ℚ) i = 1 ∧
    categRnd (![1 / 2, 1 / 4, 1 / 4] : Fin 3 → ℚ) (3 / 5) = .ok 1 := by
  refine ⟨by decide +kernel, by decide +kernel, by decide +kernel⟩

/-- C78 (reported error): the body of the speed tests reports the largest difference between an entry of the value functions of the
function under test and of the reference; value functions of different lengths raise. -/
theorem C78_maxdiff {K : Type} [AddGroup K] [LinearOrder K] [NeZero n] (n_iter : ℕ) (hn : 0 < n_iter) (p p' : List (Fin n))
    (Vs Rs : List (Fin n → K)) :
    (Rs.length ≠ Vs.length → speedtest n_iter (.ok (p, Vs)) (.ok (p', Rs)) = .error .valueError) ∧
    (Rs.length = Vs.length → Vs ≠ [] → ∃ e, speedtest n_iter (.ok (p, Vs)) (.ok (p', Rs)) = .ok e ∧
      (∀ (k : ℕ) R V, Rs[k]? = some R → Vs[k]? = some V → ∀ i, |R i - V i| ≤ e) ∧
      ∃ (k : ℕ) (R V : Fin n → K) (i : Fin n), Rs[k]? = some R ∧ Vs[k]? = some V ∧ e = |R i - V i|) := by
  have hst : speedtest n_iter (.ok (p, Vs)) (.ok (p', Rs)) = tfMaxAbs Rs Vs := by
    unfold speedtest
    have hl : ∀ (l : List ℕ), l.foldlM (fun (_ : List (Fin n) × List (Fin n → K)) (_ : ℕ) =>
        (Except.ok (p, Vs) : Py (List (Fin n) × List (Fin n → K)))) (p, Vs) = .ok (p, Vs) := by
      intro l
      induction l with
      | nil => rfl
      | cons a l ih => rw [List.foldlM_cons]; exact ih
    rw [py_ok_bind, hl, py_ok_bind, if_neg hn.ne']
    rfl
  rw [hst]
  constructor
  · intro h
    unfold tfMaxAbs
    rw [if_pos h]
  · intro h hne
    unfold tfMaxAbs
    rw [if_neg (by simpa using h)]
    dsimp only
    have hmem : ∀ e, e ∈ ((Rs.zip Vs).flatMap fun p => (List.finRange n).map fun i => |p.1 i - p.2 i|) ↔
        ∃ (k : ℕ) (R V : Fin n → K) (i : Fin n), Rs[k]? = some R ∧ Vs[k]? = some V ∧ e = |R i - V i| := by
      intro e
      simp only [List.mem_flatMap, List.mem_map, List.mem_finRange, true_and]
      constructor
      · rintro ⟨⟨R, V⟩, h1, i, rfl⟩
        obtain ⟨k, hk⟩ := List.getElem?_of_mem h1
        rw [List.getElem?_zip_eq_some] at hk
        exact ⟨k, R, V, i, hk.1, hk.2, rfl⟩
      · rintro ⟨k, R, V, i, h1, h2, rfl⟩
        exact ⟨(R, V), List.mem_of_getElem? (List.getElem?_zip_eq_some.2 ⟨h1, h2⟩), i, rfl⟩
    have hmax : ∀ (es : List K) (e : K), (es.foldl max e ∈ e :: es) ∧ ∀ a ∈ e :: es, a ≤ es.foldl max e := by
      intro es
      induction es with
      | nil => intro e; simp
      | cons b es ih =>
        intro e
        obtain ⟨h1, h2⟩ := ih (max e b)
        rw [List.foldl_cons]
        refine ⟨?_, fun a ha => ?_⟩
        · rcases List.mem_cons.1 h1 with h1 | h1
          · rw [h1]
            rcases max_choice e b with h3 | h3 <;> simp [h3]
          · simp [h1]
        · have h3 := h2 (max e b) (by simp)
          simp only [List.mem_cons] at ha
          rcases ha with rfl | rfl | ha
          · exact (le_max_left _ _).trans h3
          · exact (le_max_right _ _).trans h3
          · exact h2 a (by simp [ha])
    obtain ⟨V, Vs', rfl⟩ := List.exists_cons_of_ne_nil hne
    obtain ⟨R, Rs', rfl⟩ := List.exists_cons_of_ne_nil (l := Rs) (by rintro rfl; simp at h)
    have h0 := (hmem _).2 ⟨0, R, V, 0, rfl, rfl, rfl⟩
    split
    · rename_i he
      rw [he] at h0
      simp at h0
    · rename_i e es he
      rw [he] at hmem
      refine ⟨_, rfl, fun k R' V' g1 g2 i => (hmax es e).2 _ ((hmem _).2 ⟨k, R', V', i, g1, g2, rfl⟩), (hmem _).1 (hmax es e).1⟩

/-- `C78_maxdiff` with an error of two. -/
example : speedtest 1 (.ok ([0], [![1, 3], ![0, 0]])) (.ok ([0], [![1, 1], ![1, 0]])) = .ok (2 : ℚ) := by decide +kernel

/-- C78 (data): for every stochastic model, length and random numbers in `[0, 1)` data are generated; they have the requested length
and positive probability together with some initial state; and every sequence of positive probability is generated for some random
numbers. -/
theorem C78_data (H : HMM n q K) (hH : H.Stochastic) (T : ℕ) :
    (∀ rnd : ℕ → K, (∀ i, 0 ≤ rnd i ∧ rnd i < 1) → ∃ x0 xs ys, H.genTrace rnd T = .ok (x0, xs, ys) ∧ H.genData rnd T = .ok (xs, ys) ∧
      xs.length = T ∧ ys.length = T ∧ 0 < H.jointProb ys (x0 :: xs)) ∧
    ∀ x0 xs ys, xs.length = T → ys.length = T → 0 < H.jointProb ys (x0 :: xs) →
      ∃ rnd : ℕ → K, (∀ i, 0 ≤ rnd i ∧ rnd i < 1) ∧ H.genTrace rnd T = .ok (x0, xs, ys) := by
  obtain ⟨x1⟩ := hH.nonempty
  obtain ⟨y1⟩ := hH.nonempty_obs x1
  refine ⟨fun rnd hr => ?_, fun x0 xs ys hx hy hp => ?_⟩
  · obtain ⟨⟨x0, xs, ys⟩, h⟩ := genTrace_total H hH rnd T fun i => (hr i).2
    obtain ⟨-, hx, hy, -⟩ := (genTrace_ok rnd H T x0 xs ys).1 h
    refine ⟨x0, xs, ys, h, ?_, hx, hy, ?_⟩
    · unfold HMM.genData
      rw [h]
      rfl
    · rw [jointProb_draw H y1 T x0 xs ys hx hy]
      apply Finset.prod_pos
      intro i hi
      have := (genTrace_iff H hH y1 rnd T x0 xs ys hx hy fun i _ => (hr i).1).1 h i (Finset.mem_range.1 hi)
      linarith
  · rw [jointProb_draw H y1 T x0 xs ys hx hy] at hp
    have hpos : ∀ i < 2 * T + 1, 0 < drawProb H (fun k => (x0 :: xs).getD k x0) (fun k => ys.getD k y1) i := by
      intro i hi
      refine lt_of_le_of_ne (drawProb_nonneg H hH _ _ i) (fun h => ?_)
      rw [Finset.prod_eq_zero (Finset.mem_range.2 hi) h.symm] at hp
      exact lt_irrefl _ hp
    refine ⟨fun i => if i < 2 * T + 1 then drawLow H (fun k => (x0 :: xs).getD k x0) (fun k => ys.getD k y1) i else 0, ?_, ?_⟩
    · intro i
      dsimp only
      split
      · have h1 := drawLow_bounds H hH (fun k => (x0 :: xs).getD k x0) (fun k => ys.getD k y1) i
        have h2 := hpos i ‹_›
        exact ⟨h1.1, by linarith [h1.2]⟩
      · exact ⟨le_rfl, one_pos⟩
    · rw [genTrace_iff H hH y1 _ T x0 xs ys hx hy]
      · intro i hi
        rw [if_pos hi]
        exact ⟨le_rfl, by linarith [hpos i hi]⟩
      · intro i hi
        rw [if_pos hi]
        exact (drawLow_bounds H hH _ _ i).1

end Field

/-- C78 (distribution): with independent random numbers uniform on `[0, 1)` the probability of an initial state, states and
observations is their joint probability in the model. -/
theorem C78_distribution (H : HMM n q ℝ) (hH : H.Stochastic) (T : ℕ) (x0 : Fin n) (xs : List (Fin n)) (ys : List (Fin q))
    (hx : xs.length = T) (hy : ys.length = T) :
    MeasureTheory.volume {w : Fin (2 * T + 1) → ℝ | (∀ i, 0 ≤ w i ∧ w i < 1) ∧
      H.genTrace (fun k => if h : k < 2 * T + 1 then w ⟨k, h⟩ else 0) T = .ok (x0, xs, ys)} = ENNReal.ofReal (H.jointProb ys (x0 :: xs)) := by
  obtain ⟨y1⟩ := hH.nonempty_obs x0
  set x := fun k => (x0 :: xs).getD k x0
  set y := fun k => ys.getD k y1
  have e : {w : Fin (2 * T + 1) → ℝ | (∀ i, 0 ≤ w i ∧ w i < 1) ∧
      H.genTrace (fun k => if h : k < 2 * T + 1 then w ⟨k, h⟩ else 0) T = .ok (x0, xs, ys)} =
      Set.pi Set.univ fun i : Fin (2 * T + 1) => Set.Ico (drawLow H x y i) (drawLow H x y i + drawProb H x y i) := by
    ext w
    simp only [Set.mem_setOf_eq, Set.mem_pi, Set.mem_univ, true_implies, Set.mem_Ico]
    constructor
    · rintro ⟨h1, h2⟩ i
      have := (genTrace_iff H hH y1 _ T x0 xs ys hx hy (fun i hi => by rw [dif_pos hi]; exact (h1 _).1)).1 h2 i i.2
      rw [dif_pos i.2] at this
      exact this
    · intro h
      have h1 : ∀ i, 0 ≤ w i ∧ w i < 1 := by
        intro i
        have h2 := drawLow_bounds H hH x y i
        exact ⟨h2.1.trans (h i).1, (h i).2.trans_le h2.2⟩
      refine ⟨h1, (genTrace_iff H hH y1 _ T x0 xs ys hx hy (fun i hi => by rw [dif_pos hi]; exact (h1 _).1)).2 ?_⟩
      intro i hi
      rw [dif_pos hi]
      exact h ⟨i, hi⟩
  rw [e, Real.volume_pi_Ico, jointProb_draw H y1 T x0 xs ys hx hy, ← Fin.prod_univ_eq_prod_range,
    ENNReal.ofReal_prod_of_nonneg (f := fun i : Fin (2 * T + 1) => drawProb H x y i) (fun i _ => drawProb_nonneg H hH _ _ i)]
  apply Finset.prod_congr rfl
  intro i _
  rw [add_sub_cancel_left]

/-! ### Speed tests -/

section Speed
variable {P K : Type} [Field P] [LinearOrder P] [IsStrictOrderedRing P] [AddCommGroup K] [LinearOrder K] [IsOrderedAddMonoid K] [NeZero n]
  {S : P → Prop} {nl : P → K}
  {scanV : ((Fin n → Fin n → K) → (Fin n → Fin n → K) → Py (Fin n → Fin n → K)) → List (Fin n → Fin n → K) → Py (List (Fin n → Fin n → K))}
  {scanF : ((Fin n → Fin n) → (Fin n → Fin n) → Py (Fin n → Fin n)) → List (Fin n → Fin n) → Py (List (Fin n → Fin n))}
  {am : (Fin n → K) → Fin n}

/-- C78 (speed tests): with at least two observations, one iteration, and negative log probabilities below the sentinel, the error
reported by all seven speed tests is exactly zero, for all random numbers, associative scans and choices among equal minima. -/
theorem C78_err (h : IsNegLog S nl) (hV : IsAssocScan scanV) (hF : IsAssocScan scanF) (ham : IsArgmin am) (H : HMM n q P) (hH : H.All S)
    (hst : H.Stochastic) (inf B : K) (hp : ∀ x, |nl (H.prior x)| ≤ B) (hPi : ∀ i j, |nl (H.Pi i j)| ≤ B) (hPo : ∀ i y, |nl (H.Po i y)| ≤ B)
    (rnd : ℕ → P) (hr : ∀ i, 0 ≤ rnd i ∧ rnd i < 1) (steps n_iter : ℕ) (h2 : 2 ≤ steps) (hn : n_iter ≠ 0)
    (hB : (2 * steps + 2) • (B + B) < inf) :
    speedFscSeqBwFw am nl rnd H steps n_iter = .ok 0 ∧
    speedFscParBwFw scanV scanF am inf nl rnd H steps n_iter = .ok 0 ∧
    speedFscParBwFwBw scanV am inf nl rnd H steps n_iter = .ok 0 ∧
    speedSeqFwBw am nl rnd H steps n_iter = .ok 0 ∧
    speedParFwBw scanV scanF am nl rnd H steps n_iter = .ok 0 ∧
    speedSeqParFwBw scanF am nl rnd H steps n_iter = .ok 0 ∧
    speedParFwBwFw scanV am nl rnd H steps n_iter = .ok 0 := by
  obtain ⟨x0, xs, ys, -, hd, -, hl, -⟩ := (C78_data H hst steps).1 rnd hr
  have hys : ys ≠ [] := by
    rintro rfl
    simp at hl
    omega
  subst hl
  obtain ⟨spath, Vs, hVs, hs⟩ := seqViterbi_vals h H hH ys hys
  obtain ⟨c1, c2, c3, c4, c5⟩ := C54_viterbi scanV scanF am inf nl H ys h2
  have hB0 : 0 ≤ B := (abs_nonneg _).trans (hp 0)
  have hB1 : (2 * ys.length + 1) • (B + B) ≤ inf := (nsmul_le_nsmul_left (add_nonneg hB0 hB0) (by omega)).trans hB.le
  obtain ⟨p1, p1', V1, a1, a2, -⟩ := (C63_seq h H hH ys hys).1 am ham
  obtain ⟨q1, q1', W1, b1, b2, -⟩ := C17_seq ham h H hH ys
  rw [← C15_reduction_exact h H hH ys hys] at b2
  have key : ∀ p p' V, V = Vs → speedtest n_iter (.ok (p, V)) (.ok (p', Vs)) = .ok 0 := by
    rintro p p' _ rfl
    exact speedtest_zero n_iter hn p p' _ hVs
  have eV1 : V1 = Vs := by rw [hs] at a2; cases a2; rfl
  have eW1 : W1 = Vs := by rw [hs] at b2; cases b2; rfl
  have hdata : ∀ g : List (Fin n) × List (Fin q) → Py K, (H.genData rnd ys.length >>= g) = g (xs, ys) := fun g => by rw [hd]; rfl
  refine ⟨?_, ?_, ?_, ?_, ?_, ?_, ?_⟩
  · unfold speedFscSeqBwFw
    rw [hdata, a1, hs]
    exact key _ _ _ eV1
  · unfold speedFscParBwFw
    rw [hdata, c1, (C63_par h H hH inf B hV hF hp hPi hPo ys hys hB1).1 am, a1, C16_par_eq_seq h H hH inf B hp hPi hPo ys hys hB1, hs]
    exact key _ _ _ eV1
  · unfold speedFscParBwFwBw
    obtain ⟨p2, s2, V2, d1, d2, -⟩ := C63_par_bwfwbw h H hH inf B hV ham hp hPi hPo ys hys hB
    obtain ⟨p3, s3, V3, d3, d4, -⟩ := C16_fwdbwd_on_MAP h H hH inf B hp hPi hPo ys hys hB
    rw [hs] at d2 d4
    cases d2
    cases d4
    rw [hdata, c2, d1, d3]
    exact key _ _ _ rfl
  · unfold speedSeqFwBw
    rw [hdata, b1, hs]
    exact key _ _ _ eW1
  · unfold speedParFwBw
    rw [hdata, c3, (C17_par_eq_seq hV hF am H ys).1, b1, hs]
    exact key _ _ _ eW1
  · unfold speedSeqParFwBw
    rw [hdata, c4, (C17_par_eq_seq hV hF am H ys).2, b1, hs]
    exact key _ _ _ eW1
  · unfold speedParFwBwFw
    obtain ⟨p2, s2, V2, d1, d2, -⟩ := C17_fwbwfw hV ham h H hH ys
    rw [b1] at d2
    cases d2
    rw [hdata, c5, d1, hs]
    exact key _ _ _ eW1

/-- C78 (short data): with a single observation the two sequential speed tests report zero and the other five raise, because the scan
gets no levels (C54); without observations or iterations all raise. -/
theorem C78_short (h : IsNegLog S nl) (ham : IsArgmin am) (H : HMM n q P) (hH : H.All S) (hst : H.Stochastic) (inf : K)
    (rnd : ℕ → P) (hr : ∀ i, 0 ≤ rnd i ∧ rnd i < 1) (n_iter : ℕ) :
    (n_iter ≠ 0 → speedFscSeqBwFw am nl rnd H 1 n_iter = .ok 0 ∧ speedSeqFwBw am nl rnd H 1 n_iter = .ok 0) ∧
    (speedFscParBwFw scanV scanF am inf nl rnd H 1 n_iter = .error .valueError ∧
      speedFscParBwFwBw scanV am inf nl rnd H 1 n_iter = .error .valueError ∧
      speedParFwBw scanV scanF am nl rnd H 1 n_iter = .error .valueError ∧
      speedSeqParFwBw scanF am nl rnd H 1 n_iter = .error .valueError ∧
      speedParFwBwFw scanV am nl rnd H 1 n_iter = .error .valueError) ∧
    (speedFscSeqBwFw am nl rnd H 0 n_iter = .error .indexError ∧
      speedFscParBwFw scanV scanF am inf nl rnd H 0 n_iter = .error .indexError ∧
      speedFscParBwFwBw scanV am inf nl rnd H 0 n_iter = .error .indexError ∧
      (∃ e, speedSeqFwBw am nl rnd H 0 n_iter = .error e) ∧
      speedParFwBw scanV scanF am nl rnd H 0 n_iter = .error .valueError ∧
      speedSeqParFwBw scanF am nl rnd H 0 n_iter = .error .valueError ∧
      speedParFwBwFw scanV am nl rnd H 0 n_iter = .error .valueError) ∧
    ∀ steps, steps ≠ 0 → speedFscSeqBwFw am nl rnd H steps 0 = .error .zeroDivisionError ∧
      speedSeqFwBw am nl rnd H steps 0 = .error .zeroDivisionError := by
  have hdata : ∀ steps, ∃ xs ys, ys.length = steps ∧ ∀ g : List (Fin n) × List (Fin q) → Py K, (H.genData rnd steps >>= g) = g (xs, ys) := by
    intro steps
    obtain ⟨x0, xs, ys, -, hd, -, hl, -⟩ := (C78_data H hst steps).1 rnd hr
    exact ⟨xs, ys, hl, fun g => by rw [hd]; rfl⟩
  refine ⟨fun hn => ?_, ?_, ?_, ?_⟩
  · obtain ⟨xs, ys, hl, hd⟩ := hdata 1
    have hys : ys ≠ [] := by
      rintro rfl
      simp at hl
    obtain ⟨spath, Vs, hVs, hs⟩ := seqViterbi_vals h H hH ys hys
    obtain ⟨p1, p1', V1, a1, a2, -⟩ := (C63_seq h H hH ys hys).1 am ham
    obtain ⟨q1, q1', W1, b1, b2, -⟩ := C17_seq ham h H hH ys
    rw [← C15_reduction_exact h H hH ys hys] at b2
    rw [hs] at a2 b2
    cases a2
    cases b2
    constructor
    · unfold speedFscSeqBwFw
      rw [hd, a1, hs]
      exact speedtest_zero n_iter hn _ _ _ hVs
    · unfold speedSeqFwBw
      rw [hd, b1, hs]
      exact speedtest_zero n_iter hn _ _ _ hVs
  · obtain ⟨xs, ys, hl, hd⟩ := hdata 1
    obtain ⟨y, rfl⟩ := List.length_eq_one_iff.1 hl
    obtain ⟨c1, c2, c3, c4, c5⟩ := C54_viterbi_one scanV scanF am inf nl H y
    unfold speedFscParBwFw speedFscParBwFwBw speedParFwBw speedSeqParFwBw speedParFwBwFw
    rw [hd, hd, hd, hd, hd, c1, c2, c3, c4, c5]
    exact ⟨rfl, rfl, rfl, rfl, rfl⟩
  · obtain ⟨xs, ys, hl, hd⟩ := hdata 0
    rw [List.length_eq_zero_iff] at hl
    subst hl
    unfold speedFscSeqBwFw speedFscParBwFw speedFscParBwFwBw speedSeqFwBw speedParFwBw speedSeqParFwBw speedParFwBwFw
    simp only [hd]
    refine ⟨rfl, rfl, rfl, ?_, rfl, rfl, rfl⟩
    rw [(C15_empty H).1, C17_run_empty]
    exact speedtest_ref_error _ _ _
  · intro steps hs0
    obtain ⟨xs, ys, hl, hd⟩ := hdata steps
    have hys : ys ≠ [] := by
      rintro rfl
      exact hs0 hl.symm
    obtain ⟨p1, p1', V1, a1, -, -⟩ := (C63_seq h H hH ys hys).1 am ham
    obtain ⟨q1, q1', W1, b1, -, -⟩ := C17_seq ham h H hH ys
    constructor
    · unfold speedFscSeqBwFw
      rw [hd, a1]
      rfl
    · unfold speedSeqFwBw
      rw [hd, b1]
      rfl

end Speed

/-- C78 (what the error does not see): the error is zero whenever the value functions agree, whatever the two state sequences are. -/
theorem C78_blind {K : Type} [AddCommGroup K] [LinearOrder K] [IsOrderedAddMonoid K] [NeZero n] (n_iter : ℕ) (hn : n_iter ≠ 0)
    (p p' : List (Fin n)) (Vs : List (Fin n → K)) (h : Vs ≠ []) : speedtest n_iter (.ok (p, Vs)) (.ok (p', Vs)) = .ok 0 :=
  speedtest_zero n_iter hn p p' Vs h

/-- `C78_blind` for two different sequences. -/
example : speedtest 1 (.ok ([0, 1], [![2, 3], ![4, 5]])) (.ok ([1, 1], [![2, 3], ![4, 5]])) = (.ok 0 : Py ℤ) := by decide +kernel

/-- C78 (Gilbert-Elliot model): for the model of the repository the error of all seven speed tests is zero for every number of steps
from two to `10^18`, every number of iterations, and all random numbers. -/
theorem C78_gilbert_elliot {scanV : ((Fin 4 → Fin 4 → ℝ) → (Fin 4 → Fin 4 → ℝ) → Py (Fin 4 → Fin 4 → ℝ)) → List (Fin 4 → Fin 4 → ℝ) →
      Py (List (Fin 4 → Fin 4 → ℝ))}
    {scanF : ((Fin 4 → Fin 4) → (Fin 4 → Fin 4) → Py (Fin 4 → Fin 4)) → List (Fin 4 → Fin 4) → Py (List (Fin 4 → Fin 4))}
    {am : (Fin 4 → ℝ) → Fin 4} (hV : IsAssocScan scanV) (hF : IsAssocScan scanF) (ham : IsArgmin am) (rnd : ℕ → ℝ)
    (hr : ∀ i, 0 ≤ rnd i ∧ rnd i < 1) (steps n_iter : ℕ) (h2 : 2 ≤ steps) (h3 : steps ≤ 10 ^ 18) (hn : n_iter ≠ 0) :
    let nl := fun p : ℝ => -Real.log p
    speedFscSeqBwFw am nl rnd geModel steps n_iter = .ok 0 ∧
    speedFscParBwFw scanV scanF am (10 ^ 20) nl rnd geModel steps n_iter = .ok 0 ∧
    speedFscParBwFwBw scanV am (10 ^ 20) nl rnd geModel steps n_iter = .ok 0 ∧
    speedSeqFwBw am nl rnd geModel steps n_iter = .ok 0 ∧
    speedParFwBw scanV scanF am nl rnd geModel steps n_iter = .ok 0 ∧
    speedSeqParFwBw scanF am nl rnd geModel steps n_iter = .ok 0 ∧
    speedParFwBwFw scanV am nl rnd geModel steps n_iter = .ok 0 := by
  intro nl
  have hG := C49_gilbert_elliot (3 / 100 : ℝ) (1 / 10) (5 / 100) (1 / 10) (3 / 10) (by norm_num) (by norm_num) (by norm_num) (by norm_num)
    (by norm_num)
  obtain ⟨g1, g2, g3, -⟩ := hG
  have hb : ∀ p : ℝ, 1 / 1000 ≤ p → p ≤ 1 → |nl p| ≤ 7 := by
    intro p h1 h2
    have e1 : Real.log p ≤ 0 := Real.log_nonpos (by linarith) h2
    have e2 : -7 ≤ Real.log p := by
      rw [Real.le_log_iff_exp_le (by linarith), Real.exp_neg, inv_le_comm₀ (Real.exp_pos _) (by linarith)]
      have e3 : p⁻¹ ≤ 1000 := by
        rw [inv_le_comm₀ (by linarith) (by norm_num)]
        linarith
      have e4 := Real.exp_one_gt_d9
      have e5 : Real.exp 7 = Real.exp 1 ^ 7 := by rw [← Real.exp_nat_mul]; norm_num
      have e6 : (27 / 10 : ℝ) ^ 7 ≤ Real.exp 1 ^ 7 := pow_le_pow_left₀ (by norm_num) (by linarith) 7
      rw [e5]
      norm_num at e6 ⊢
      linarith
    show |-Real.log p| ≤ 7
    rw [abs_le]
    constructor <;> linarith
  refine C78_err C14_real_log_pos hV hF ham geModel ⟨g3.1, fun i => (g1 i).1, fun i => (g2 i).1⟩
    ⟨⟨fun x => (g3.1 x).le, g3.2⟩, fun x => ⟨fun y => ((g1 x).1 y).le, (g1 x).2⟩, fun x => ⟨fun y => ((g2 x).1 y).le, (g2 x).2⟩⟩
    (10 ^ 20) 7 ?_ ?_ ?_ rnd hr steps n_iter h2 hn ?_
  · intro x
    exact hb _ (by show _ ≤ (1 / 4 : ℝ); norm_num) (by show (1 / 4 : ℝ) ≤ _; norm_num)
  · intro i j
    apply hb
    · fin_cases i <;> fin_cases j <;> simp [geModel, geHMM] <;> norm_num
    · fin_cases i <;> fin_cases j <;> simp [geModel, geHMM] <;> norm_num
  · intro i j
    apply hb
    · fin_cases i <;> fin_cases j <;> simp [geModel, geHMM] <;> norm_num
    · fin_cases i <;> fin_cases j <;> simp [geModel, geHMM] <;> norm_num
  · have : (steps : ℝ) ≤ 10 ^ 18 := by exact_mod_cast h3
    rw [nsmul_eq_mul]
    push_cast
    linarith

/-- The hypotheses of `C78_data`, `C78_distribution`, `C78_err` and `C78_short` hold for the Gilbert-Elliot model. -/
example : (geModel : HMM 4 2 ℝ).Stochastic ∧ (geModel : HMM 4 2 ℝ).All (fun p => 0 < p) := by
  obtain ⟨g1, g2, g3, -⟩ := C49_gilbert_elliot (3 / 100 : ℝ) (1 / 10) (5 / 100) (1 / 10) (3 / 10) (by norm_num) (by norm_num)
    (by norm_num) (by norm_num) (by norm_num)
  exact ⟨⟨⟨fun x => (g3.1 x).le, g3.2⟩, fun x => ⟨fun y => ((g1 x).1 y).le, (g1 x).2⟩, fun x => ⟨fun y => ((g2 x).1 y).le, (g2 x).2⟩⟩,
    g3.1, fun i => (g1 i).1, fun i => (g2 i).1⟩

/-- Data of the Gilbert-Elliot model for two steps. -/
example : (geModel : HMM 4 2 ℚ).genData (fun k => if k = 1 then 99 / 100 else 1 / 2) 2 = .ok ([3, 3], [1, 1]) := by decide +kernel

/-- Random numbers, scans and a minimiser for `C78_gilbert_elliot`. -/
example : (∀ i, 0 ≤ (fun _ : ℕ => (1 / 2 : ℝ)) i ∧ (fun _ : ℕ => (1 / 2 : ℝ)) i < 1) ∧
    IsAssocScan (fun (op : (Fin 4 → Fin 4) → (Fin 4 → Fin 4) → Py (Fin 4 → Fin 4)) l => scanVals op l) ∧
    IsArgmin (argmin1 : (Fin 4 → ℝ) → Fin 4) :=
  ⟨fun _ => by norm_num, C17_scan_example, isArgmin_argmin1⟩

end Verif
