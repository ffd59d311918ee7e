import Verif.Proof.ViterbiFSC
import Verif.Proof.FSCFwdBwd
import Verif.Props.FSC
import Mathlib.Analysis.SpecialFunctions.Log.Basic
import Mathlib.Algebra.Order.Monoid.WithTop

/-!
# Properties C13–C17 and C56: Viterbi decoding

Models: `Verif.Model.Viterbi` (`/repo/parallel_control/viterbi_np.py`), `Verif.Model.ViterbiTF`
(`/repo/parallel_control/viterbi_tf.py`).
-/

namespace Verif

variable {n m q : ℕ} {P K : Type}

/-! ## C13 -/

section C13
variable [CommSemiring P] [LinearOrder P] [IsOrderedRing P] [NeZero n]

/-- **C13**: the path returned by `ref_viterbi` has one state more than there are observations and no path has a larger
joint probability with the observations (zero probabilities allowed). -/
theorem C13_ref_isMAP (H : HMM n q P) (hPi : ∀ i j, 0 ≤ H.Pi i j) (hPo : ∀ i y, 0 ≤ H.Po i y) (ys : List (Fin q)) :
    H.IsMAP ys (H.refViterbi ys).1 := by
  obtain ⟨x, xs, h1, h2, h3⟩ := refBackward_spec H hPi hPo ys H.prior
  have : (H.refViterbi ys).1 = x :: xs := by
    unfold HMM.refViterbi
    simp only [refForward_eq, h1]
  rw [this]
  refine ⟨by simp [h2], fun xs' hl => ?_⟩
  cases xs' with
  | nil => simp at hl
  | cons z zs => exact h3 z zs (by simpa using hl)

/-- **C13** (values): row `k` of the returned `V_list` holds the largest joint probabilities of the first `k`
observations with a path ending in `x`. -/
theorem C13_ref_values (H : HMM n q P) (hPi : ∀ i j, 0 ≤ H.Pi i j) (hPo : ∀ i y, 0 ≤ H.Po i y) (ys : List (Fin q)) :
    (H.refViterbi ys).2.length = ys.length + 1 ∧
    ∀ k ≤ ys.length, ∃ V, (H.refViterbi ys).2[k]? = some V ∧ ∀ x,
      IsGreatest {p | ∃ xs : List (Fin n), xs.length = k + 1 ∧ xs.getLast? = some x ∧
        p = H.jointProb (ys.take k) xs} (V x) := by
  have h : (H.refViterbi ys).2 = accList H.refStep H.prior ys := refForward_eq H ys
  rw [h]
  refine ⟨accList_length _ _ _, fun k hk => ⟨_, accList_get _ _ _ _ hk, fun x => ?_⟩⟩
  have := refStep_foldl_isGreatest H hPi hPo (ys.take k) x
  rwa [List.length_take, min_eq_left hk] at this

/-- Two states, three observations; unnormalised weights. -/
def exHMM : HMM 2 2 ℕ :=
  ⟨fun x => if x = 0 then 3 else 1, fun i j => if i = j then 3 else 1, fun x y => if x = y then 4 else 1⟩

example : (∀ i j, 0 ≤ exHMM.Pi i j) ∧ (∀ i y, 0 ≤ exHMM.Po i y) := by decide
example : (exHMM.refViterbi [0, 1, 1]).1 = [0, 0, 1, 1] := by decide

end C13

/-! ## C14 -/

section C14
variable [CommSemiring P] [LinearOrder P] [AddCommMonoid K] [LinearOrder K] [NeZero n] {S : P → Prop} {nl : P → K}

/-- `-np.log` on non-negative reals, with `-log 0 = +inf`. -/
noncomputable def nlTop (p : ℝ) : WithTop ℝ := if p = 0 then ⊤ else ((-Real.log p : ℝ) : WithTop ℝ)

/-- The logarithm with infinity meets the assumptions used below, on all non-negative reals. -/
theorem C14_real_log : IsNegLog (fun p : ℝ => 0 ≤ p) nlTop where
  one := zero_le_one
  mul := mul_nonneg
  nl_one := by simp [nlTop]
  nl_mul := by
    intro a b _ _
    unfold nlTop
    by_cases h1 : a = 0
    · simp [h1]
    · by_cases h2 : b = 0
      · simp [h2]
      · rw [if_neg (mul_ne_zero h1 h2), if_neg h1, if_neg h2, Real.log_mul h1 h2, neg_add]
        rfl
  nl_le := by
    intro a b ha hb
    unfold nlTop
    by_cases h2 : b = 0
    · subst h2; simpa using ha
    · by_cases h1 : a = 0
      · subst h1
        have hb' : 0 < b := lt_of_le_of_ne hb (Ne.symm h2)
        rw [if_pos rfl, if_neg h2]
        simp only [top_le_iff, WithTop.coe_ne_top, false_iff, not_le]
        exact hb'
      · rw [if_neg h1, if_neg h2, WithTop.coe_le_coe, neg_le_neg_iff]
        exact Real.log_le_log_iff (lt_of_le_of_ne hb (Ne.symm h2)) (lt_of_le_of_ne ha (Ne.symm h1))

/-- The plain negative logarithm meets them on positive reals. -/
theorem C14_real_log_pos : IsNegLog (fun p : ℝ => 0 < p) (fun p => -Real.log p) where
  one := zero_lt_one
  mul := mul_pos
  nl_one := by simp
  nl_mul := by
    intro a b ha hb
    rw [Real.log_mul ha.ne' hb.ne', neg_add]
  nl_le := by
    intro a b ha hb
    rw [neg_le_neg_iff]
    exact Real.log_le_log_iff hb ha

omit [CommSemiring P] [LinearOrder P] in
/-- **C14**: `ref_viterbi_log` and `ref_viterbi_log_v2` always return the same, without raising. -/
theorem C14_log_eq_log2 (H : HMM n q P) (ys : List (Fin q)) :
    H.refViterbiLog nl ys = H.refViterbiLog2 nl ys ∧ ∃ r, H.refViterbiLog nl ys = .ok r := by
  refine ⟨refViterbiLog_eq H ys, ?_⟩
  rw [refViterbiLog_eq, refViterbiLog2_eq]
  exact ⟨_, rfl⟩

/-- **C14** (values): the value lists are the negative logarithms of those of `ref_viterbi`, zeros included. -/
theorem C14_log_values (h : IsNegLog S nl) (H : HMM n q P) (hH : H.All S) (ys : List (Fin q)) :
    ∃ p, H.refViterbiLog nl ys = .ok (p, (H.refViterbi ys).2.map (fun V x => nl (V x))) := by
  rw [refViterbiLog_eq, refViterbiLog2_eq]
  refine ⟨_, congrArg Except.ok (Prod.ext rfl ?_)⟩
  have h1 : (H.refViterbi ys).2 = accList H.refStep H.prior ys := refForward_eq H ys
  rw [h1]
  exact accList_nl h hH ys H.prior hH.prior

/-- **C14** (path): the log-domain path has largest probability, always. -/
theorem C14_log_isMAP [IsOrderedAddMonoid K] (h : IsNegLog S nl) (H : HMM n q P) (hH : H.All S) (ys : List (Fin q)) :
    ∃ p V, H.refViterbiLog nl ys = .ok (p, V) ∧ H.IsMAP ys p := by
  rw [refViterbiLog_eq, refViterbiLog2_eq]
  refine ⟨_, _, rfl, ?_⟩
  rw [logPols_eq_amPols]
  exact backFold_isMAP isArgmin_argmin1 h hH ys

/-- **C14** (agreement): if some path has positive probability, all three reference decoders return the same path
(ties broken alike). -/
theorem C14_log_eq_ref [IsStrictOrderedRing P] (h : IsNegLog S nl) (hS : ∀ p, S p → 0 ≤ p) (H : HMM n q P)
    (hH : H.All S) (ys : List (Fin q))
    (hpos : ∃ xs : List (Fin n), xs.length = ys.length + 1 ∧ 0 < H.jointProb ys xs) :
    H.refViterbiLog nl ys = .ok ((H.refViterbi ys).1, (H.refViterbi ys).2.map (fun V x => nl (V x))) := by
  obtain ⟨xs, hl, hp⟩ := hpos
  obtain ⟨z, hz⟩ : ∃ z, xs.getLast? = some z := by
    cases xs with
    | nil => simp at hl
    | cons a as => exact ⟨_, List.getLast?_eq_getLast_of_ne_nil (by simp)⟩
  have hex : ∃ x, 0 < ys.foldl H.refStep H.prior x := by
    refine ⟨z, hp.trans_le ?_⟩
    exact (refStep_foldl_isGreatest H (fun i j => hS _ (hH.Pi i j)) (fun i y => hS _ (hH.Po i y)) ys z).2 ⟨xs, hl, hz, rfl⟩
  obtain ⟨x, r, h1, _, h3⟩ := backtrack_eq h hH hS ys H.prior hH.prior hex
  obtain ⟨p, hp⟩ := C14_log_values h H hH ys
  rw [hp]
  rw [refViterbiLog_eq, refViterbiLog2_eq] at hp
  have hp1 := congrArg (fun r : Py (List (Fin n) × List (Fin n → K)) => r.map Prod.fst) hp
  simp only [Except.map, Except.ok.injEq] at hp1
  rw [← hp1, h3]
  have : (H.refViterbi ys).1 = x :: r := by
    unfold HMM.refViterbi
    simp only [refForward_eq, h1]
  rw [this]

/-- Weights zero and one, with infinity. -/
def nl01 (p : ℕ) : WithTop ℕ := if p = 0 then ⊤ else 0

theorem isNegLog01 : IsNegLog (fun p : ℕ => p = 0 ∨ p = 1) nl01 where
  one := by simp
  mul := by rintro a b (rfl | rfl) (rfl | rfl) <;> simp
  nl_one := rfl
  nl_mul := by rintro a b (rfl | rfl) (rfl | rfl) <;> rfl
  nl_le := by rintro a b (rfl | rfl) (rfl | rfl) <;> decide

/-- A model in which the only observation is impossible. -/
def zeroHMM : HMM 2 1 ℕ := ⟨fun x => if x = 0 then 0 else 1, fun i j => if i = j then 0 else 1, fun _ _ => 0⟩

/-- **C14** (the positivity assumption is needed): if every path has probability zero the decoders may return
different paths. -/
theorem C14_zero_differs : zeroHMM.All (fun p => p = 0 ∨ p = 1) ∧
    (zeroHMM.refViterbi [0]).1 = [1, 0] ∧
    ∃ V, zeroHMM.refViterbiLog nl01 [0] = .ok ([0, 0], V) := by
  refine ⟨⟨by decide, by decide, by decide⟩, by decide, ?_⟩
  obtain ⟨p, hp⟩ := C14_log_values isNegLog01 zeroHMM ⟨by decide, by decide, by decide⟩ [0]
  refine ⟨(zeroHMM.refViterbi [0]).2.map (fun V x => nl01 (V x)), hp.trans ?_⟩
  have hp1 : (zeroHMM.refViterbiLog nl01 [0]).map Prod.fst = .ok [0, 0] := by decide
  rw [hp] at hp1
  simp only [Except.map, Except.ok.injEq] at hp1
  rw [hp1]

/-- A model with possible and impossible moves. -/
def someHMM : HMM 2 1 ℕ := ⟨fun x => if x = 0 then 0 else 1, fun i j => if i = j then 0 else 1, fun _ _ => 1⟩

example : someHMM.All (fun p => p = 0 ∨ p = 1) ∧ 0 < someHMM.jointProb [0, 0] [1, 0, 1] ∧
    (someHMM.refViterbi [0, 0]).1 = [1, 0, 1] := ⟨⟨by decide, by decide, by decide⟩, by decide, by decide⟩

/-- A model with real probabilities. -/
noncomputable def realHMM : HMM 2 2 ℝ :=
  ⟨fun _ => 1 / 2, fun i j => if i = j then 3 / 4 else 1 / 4, fun x y => if x = y then 1 else 1 / 8⟩

theorem realHMM_pos : realHMM.All (fun p => 0 < p) where
  prior x := by simp [realHMM]
  Pi i j := by simp only [realHMM]; split <;> norm_num
  Po i y := by simp only [realHMM]; split <;> norm_num

example : realHMM.All (fun p => 0 ≤ p) :=
  ⟨fun x => (realHMM_pos.prior x).le, fun i j => (realHMM_pos.Pi i j).le, fun i y => (realHMM_pos.Po i y).le⟩

end C14

/-! ## C15 -/

section C15
variable [CommSemiring P] [LinearOrder P] [AddCommMonoid K] [LinearOrder K] [NeZero n] {S : P → Prop} {nl : P → K}

/-- **C15**: for non-empty observations `seqViterbi` (reversed-time control problem, solved and converted back) returns
exactly the path and values of `ref_viterbi_log_v2`, ties included. -/
theorem C15_reduction_exact (h : IsNegLog S nl) (H : HMM n q P) (hH : H.All S) (ys : List (Fin q)) (hys : ys ≠ []) :
    H.seqViterbi nl ys = H.refViterbiLog2 nl ys := seqViterbi_eq h hH ys hys

/-- **C15** (empty observations): the reference returns a one-state path, the reduction raises `IndexError`. -/
theorem C15_empty (H : HMM n q P) :
    H.seqViterbi nl [] = .error .indexError ∧
    H.refViterbiLog2 nl [] = .ok ([argmin1 (fun x => nl (H.prior x))], [fun x => nl (H.prior x)]) := ⟨rfl, rfl⟩

example : realHMM.seqViterbi (fun p => -Real.log p) [0, 1] = realHMM.refViterbiLog2 (fun p => -Real.log p) [0, 1] :=
  C15_reduction_exact C14_real_log_pos realHMM realHMM_pos [0, 1] (by simp)
example : (someHMM.seqViterbi nl01 [0, 0]).map Prod.fst = .ok [1, 0, 1] := by decide

end C15

/-! ## C56 -/

section C56
variable [AddCommMonoid K] [LinearOrder K] [IsOrderedAddMonoid K] [NeZero n] [NeZero m]

/-- **C56** (values): with non-negative, possibly infinite costs, each value of `parBackwardPass` is the value of
`seqBackwardPass`, or both are at least the sentinel. -/
theorem C56_values (inf : K) (hinf : 0 ≤ inf) (M : FSC n m K) (hT : M.stages ≠ []) (hLT : ∀ x, 0 ≤ M.LT x)
    (hL : ∀ s ∈ M.stages, ∀ x u, 0 ≤ s.L x u) :
    ∃ us Vs, M.parBackwardPass inf = .ok (us, Vs) ∧ Vs.length = M.stages.length + 1 ∧
      ∀ k ≤ M.stages.length, ∃ V V', Vs[k]? = some V ∧ M.seqBackwardPass.2[k]? = some V' ∧
        ∀ x, V x = V' x ∨ (inf ≤ V x ∧ V x ≤ V' x) := by
  refine ⟨_, _, parBackwardPass_lists inf M hT, (parValList_get _ _ _).1, fun k hk => ?_⟩
  refine ⟨_, valueFn M.LT (M.stages.drop k), (parValList_get _ _ _).2 k hk, ?_, fun x => ?_⟩
  · rw [seqBackwardPass_eq]; exact valList_get _ _ hk
  · rcases parVal_cases inf hinf M.LT (M.stages.drop k) hLT (fun s hs => hL s (List.mem_of_mem_drop hs)) x with h | h
    · exact .inl h
    · exact .inr ⟨h, parVal_le _ _ _ _⟩

/-- **C56** (trajectory): with non-negative costs, from every initial state whose optimal cost is below the sentinel,
the parallel passes return exactly the controls and states of the sequential ones. -/
theorem C56_trajectory (inf : K) (hinf : 0 ≤ inf) (M : FSC n m K) (hT : M.stages ≠ []) (hLT : ∀ x, 0 ≤ M.LT x)
    (hL : ∀ s ∈ M.stages, ∀ x u, 0 ≤ s.L x u) (x0 : Fin n) (V0 : Fin n → K)
    (hV0 : M.seqBackwardPass.2[0]? = some V0) (hx0 : V0 x0 < inf) :
    ∃ us Vs, M.parBackwardPass inf = .ok (us, Vs) ∧
      M.parForwardPass x0 us = M.seqForwardPass x0 M.seqBackwardPass.1 := by
  refine ⟨_, _, parBackwardPass_lists inf M hT, ?_⟩
  rw [seqBackwardPass_eq] at hV0 ⊢
  rw [valList_get M.LT M.stages (Nat.zero_le _)] at hV0
  have := Option.some.inj hV0
  subst this
  rw [parForwardPass_eq M x0 _ hT (parPolList_length _ _ _), seqForwardPass_eq M x0 _ (parPolList_length _ _ _).le,
    seqForwardPass_eq M x0 _ (polList_length _ _).le]
  rw [rollout_parPol inf hinf M.LT M.stages hLT hL x0 hx0]

/-- A problem with an infinite cost, where control 1 of state 0 is forbidden. -/
def infFSC : FSC 2 2 (WithTop ℕ) :=
  ⟨[⟨fun _ u => u, fun x u => if x = 0 ∧ u = 1 then ⊤ else 2⟩, ⟨fun _ u => u, fun x u => if x = 1 then ⊤ else 1⟩],
    fun x => if x = 0 then 0 else ⊤⟩

example : (∀ x, 0 ≤ infFSC.LT x) ∧ (∀ s ∈ infFSC.stages, ∀ x u, 0 ≤ s.L x u) := ⟨fun _ => bot_le, fun _ _ _ _ => bot_le⟩
example : (infFSC.seqBackwardPass.2[0]?).map (fun V => V 0) = some 3 := by decide

end C56

/-! ## C16 -/

section C16

/-- **C16**: with all negative log probabilities bounded by `B`, `(2T+1)·2B ≤ inf`, `parBwdFwdViterbi` returns exactly
the path and values of `seqViterbi`. -/
theorem C16_par_eq_seq [CommSemiring P] [LinearOrder P] [AddCommGroup K] [LinearOrder K] [IsOrderedAddMonoid K]
    [NeZero n] {S : P → Prop} {nl : P → K} (h : IsNegLog S nl) (H : HMM n q P) (hH : H.All S) (inf B : K)
    (hp : ∀ x, |nl (H.prior x)| ≤ B) (hPi : ∀ i j, |nl (H.Pi i j)| ≤ B) (hPo : ∀ i y, |nl (H.Po i y)| ≤ B)
    (ys : List (Fin q)) (hys : ys ≠ []) (hB : (2 * ys.length + 1) • (B + B) ≤ inf) :
    H.parBwdFwdViterbi inf nl ys = H.seqViterbi nl ys := by
  set M : FSC n n K := ⟨ys.reverse.map (H.stage nl), H.nlPrior nl⟩ with hM
  have hB0 : 0 ≤ B := (abs_nonneg _).trans (hp 0)
  have hT : M.stages ≠ [] := by simp [hM, hys]
  have key : M.parBackwardPass inf = .ok M.seqBackwardPass := by
    apply C07_par_eq_seq_bounded inf (B + B) M hT
    · intro x; exact (hp x).trans (le_add_of_nonneg_left hB0)
    · intro s hs x u
      obtain ⟨y, _, rfl⟩ := List.mem_map.1 hs
      show |nl (H.Pi u x * H.Po x y)| ≤ B + B
      rw [h.nl_mul (hH.Pi _ _) (hH.Po _ _)]
      exact (abs_add_le _ _).trans (add_le_add (hPi _ _) (hPo _ _))
    · simpa [hM] using hB
  have hlen : M.seqBackwardPass.1.length = M.stages.length := by rw [seqBackwardPass_eq]; exact polList_length _ _
  unfold HMM.parBwdFwdViterbi HMM.seqViterbi
  rw [getFSC_eq H ys hys]
  show (do
    let r ← M.parBackwardPass inf
    let x0 := argmin1 (← pyGet r.2 0)
    let r' ← M.parForwardPass x0 r.1
    return fscToViterbi r'.2 r.2) = (do
    let x0 := argmin1 (← pyGet M.seqBackwardPass.2 0)
    let r' ← M.seqForwardPass x0 M.seqBackwardPass.1
    return fscToViterbi r'.2 M.seqBackwardPass.2)
  rw [key]
  have hfw : ∀ x0, M.parForwardPass x0 M.seqBackwardPass.1 = M.seqForwardPass x0 M.seqBackwardPass.1 :=
    fun x0 => parForwardPass_eq M x0 _ hT hlen
  simp only [← hfw]
  rfl

example : ∃ B : ℝ, (∀ x, |-Real.log (realHMM.prior x)| ≤ B) ∧ (∀ i j, |-Real.log (realHMM.Pi i j)| ≤ B) ∧
    (∀ i y, |-Real.log (realHMM.Po i y)| ≤ B) ∧ (2 * [(0 : Fin 2), 1].length + 1) • (B + B) ≤ (10 : ℝ) ^ 20 := by
  have key : ∀ p : ℝ, 1 / 8 ≤ p → p ≤ 1 → |-Real.log p| ≤ 8 := by
    intro p h1 h2
    have hp : 0 < p := by linarith
    rw [abs_neg, abs_of_nonpos (Real.log_nonpos hp.le h2)]
    have := Real.log_le_sub_one_of_pos (inv_pos.2 hp)
    rw [Real.log_inv] at this
    have h3 : p⁻¹ ≤ 8 := by
      rw [inv_le_comm₀ hp (by norm_num)]; linarith
    linarith
  refine ⟨8, fun x => key _ ?_ ?_, fun i j => key _ ?_ ?_, fun i y => key _ ?_ ?_, ?_⟩
  all_goals try simp only [realHMM]
  all_goals try split
  all_goals norm_num

variable [CommSemiring P] [LinearOrder P] [AddCommMonoid K] [LinearOrder K] [NeZero n] {S : P → Prop} {nl : P → K}

/-- **C16** (zero probabilities): for probabilities at most one, zero included, if some path's negative log
probability is below the sentinel then `parBwdFwdViterbi` returns the path of `seqViterbi`, and each of its values is that
of `seqViterbi` or both are at least the sentinel. -/
theorem C16_path_below_sentinel [IsOrderedAddMonoid K] (h : IsNegLog S nl) (H : HMM n q P) (hH : H.All S)
    (h1 : H.All (fun p => p ≤ 1)) (inf : K) (hinf : 0 ≤ inf) (ys : List (Fin q)) (hys : ys ≠ [])
    (hlt : ∃ xs : List (Fin n), xs.length = ys.length + 1 ∧ nl (H.jointProb ys xs) < inf) :
    ∃ path Vs Vs', H.parBwdFwdViterbi inf nl ys = .ok (path, Vs) ∧ H.seqViterbi nl ys = .ok (path, Vs') ∧
      Vs.length = ys.length + 1 ∧
      ∀ k ≤ ys.length, ∃ V V', Vs[k]? = some V ∧ Vs'[k]? = some V' ∧ ∀ x, V x = V' x ∨ (inf ≤ V x ∧ V x ≤ V' x) := by
  have hnn : ∀ {p}, S p → p ≤ 1 → 0 ≤ nl p := by
    intro p hp hp1
    rw [← h.nl_one, h.nl_le h.one hp]; exact hp1
  set ss := ys.reverse.map (H.stage nl) with hss
  have hLT : ∀ x, 0 ≤ H.nlPrior nl x := fun x => hnn (hH.prior x) (h1.prior x)
  have hL : ∀ s ∈ ss, ∀ x u, 0 ≤ s.L x u := by
    intro s hs x u
    obtain ⟨y, _, rfl⟩ := List.mem_map.1 hs
    show 0 ≤ nl (H.Pi u x * H.Po x y)
    rw [h.nl_mul (hH.Pi _ _) (hH.Po _ _)]
    exact add_nonneg (hnn (hH.Pi _ _) (h1.Pi _ _)) (hnn (hH.Po _ _) (h1.Po _ _))
  have hmin : min1 (valueFn (H.nlPrior nl) ss) < inf := by
    obtain ⟨xs, hl, hx⟩ := hlt
    cases xs with
    | nil => simp at hl
    | cons z zs =>
      obtain ⟨w, hw⟩ : ∃ w, (z :: zs).getLast? = some w := ⟨_, List.getLast?_eq_getLast_of_ne_nil (by simp)⟩
      have := logStep_le h hH ys H.prior hH.prior z zs w (by simpa using hl) hw
      refine (min1_le _ w).trans_lt (lt_of_le_of_lt ?_ hx)
      rw [hss, valueFn_stages h hH]
      exact this
  have hx0 : argmin1 (parVal inf (H.nlPrior nl) ss) = argmin1 (valueFn (H.nlPrior nl) ss) := by
    apply argmin1_below (inf := inf) _ hmin
    intro x
    rcases parVal_cases inf hinf (H.nlPrior nl) ss hLT hL x with h | h
    · exact .inl h
    · exact .inr ⟨h, h.trans (parVal_le _ _ _ _)⟩
  refine ⟨_, _, (valList (H.nlPrior nl) ss).reverse, parBwdFwdViterbi_eq inf H ys hys, ?_, ?_⟩
  · rw [seqViterbi_eq' H ys hys]
    simp only [← hss, fscToViterbi]
    rw [hx0, rollout_parPol inf hinf (H.nlPrior nl) ss hLT hL]
    rw [argmin1_val (valueFn (H.nlPrior nl) ss)]
    exact hmin
  · have hlen : ss.length = ys.length := by simp [hss]
    refine ⟨by simp [← hss, (parValList_get _ _ _).1, hlen], fun k hk => ?_⟩
    simp only [← hss]
    refine ⟨parVal inf (H.nlPrior nl) (ss.drop (ys.length - k)), valueFn (H.nlPrior nl) (ss.drop (ys.length - k)), ?_, ?_, ?_⟩
    · rw [List.getElem?_reverse (by rw [(parValList_get _ _ _).1]; omega), (parValList_get _ _ _).1,
        ← (parValList_get inf (H.nlPrior nl) ss).2 _ (by omega)]
      congr 1; omega
    · rw [List.getElem?_reverse (by rw [valList_length]; omega), valList_length,
        ← valList_get (H.nlPrior nl) ss (by omega)]
      congr 1; omega
    · intro x
      rcases parVal_cases inf hinf (H.nlPrior nl) (ss.drop (ys.length - k)) hLT
        (fun s hs => hL s (List.mem_of_mem_drop hs)) x with h | h
      · exact .inl h
      · exact .inr ⟨h, parVal_le _ _ _ _⟩

example : someHMM.All (fun p => p ≤ 1) ∧ nl01 (someHMM.jointProb [0, 0] [1, 0, 1]) < 10 ^ 20 :=
  ⟨⟨by decide, by decide, by decide⟩, by decide⟩

/-- **C16** (impossible states): the values of the two decoders differ as soon as a state is impossible. -/
theorem C16_zero_values_differ :
    ∃ H : HMM 2 1 ℕ, H.All (fun p => p = 0 ∨ p = 1) ∧
      H.parBwdFwdViterbi (10 ^ 20) nl01 [0] ≠ H.seqViterbi nl01 [0] := by
  refine ⟨⟨fun x => if x = 0 then 1 else 0, fun i j => if i = j then 1 else 0, fun _ _ => 1⟩,
    ⟨by decide, by decide, by decide⟩, ?_⟩
  intro hc
  have := congrArg (fun r : Py (List (Fin 2) × List (Fin 2 → WithTop ℕ)) =>
    r.map (fun p => (p.2[1]?).map (fun V => V 1))) hc
  revert this
  decide

end C16

/-- **C16** (`parBwdFwdBwdViterbi`): under the bound of C16 (strict), every state returned lies on a maximum a
posteriori path at its position, the values are those of `seqViterbi`, and if the maximum a posteriori path is unique the
path returned is that path, which is also the one of `seqViterbi`. -/
theorem C16_fwdbwd_on_MAP [CommSemiring P] [LinearOrder P] [AddCommGroup K] [LinearOrder K] [IsOrderedAddMonoid K]
    [NeZero n] {S : P → Prop} {nl : P → K} (h : IsNegLog S nl) (H : HMM n q P) (hH : H.All S) (inf B : K)
    (hp : ∀ x, |nl (H.prior x)| ≤ B) (hPi : ∀ i j, |nl (H.Pi i j)| ≤ B) (hPo : ∀ i y, |nl (H.Po i y)| ≤ B)
    (ys : List (Fin q)) (hys : ys ≠ []) (hB : (2 * ys.length + 2) • (B + B) < inf) :
    ∃ path spath Vs, H.parBwdFwdBwdViterbi inf nl ys = .ok (path, Vs) ∧ H.seqViterbi nl ys = .ok (spath, Vs) ∧
      path.length = ys.length + 1 ∧ H.IsMAP ys spath ∧
      (∀ k ≤ ys.length, ∃ p, H.IsMAP ys p ∧ path[k]? = p[k]?) ∧
      ((∀ p p', H.IsMAP ys p → H.IsMAP ys p' → p = p') → path = spath) := by
  set M : FSC n n K := ⟨ys.reverse.map (H.stage nl), H.nlPrior nl⟩ with hM
  have hB0 : 0 ≤ B := (abs_nonneg _).trans (hp 0)
  have hT : M.stages ≠ [] := by simp [hM, hys]
  have hLT : ∀ x, |M.LT x| ≤ B + B := fun x => (hp x).trans (le_add_of_nonneg_left hB0)
  have hL : ∀ s ∈ M.stages, ∀ x u, |s.L x u| ≤ B + B := by
    intro s hs x u
    obtain ⟨y, _, rfl⟩ := List.mem_map.1 hs
    show |nl (H.Pi u x * H.Po x y)| ≤ B + B
    rw [h.nl_mul (hH.Pi _ _) (hH.Po _ _)]
    exact (abs_add_le _ _).trans (add_le_add (hPi _ _) (hPo _ _))
  have hlenM : M.stages.length = ys.length := by simp [hM]
  have key : M.parBackwardPass inf = .ok M.seqBackwardPass := by
    apply C07_par_eq_seq_bounded inf (B + B) M hT hLT hL
    rw [hlenM]
    exact (nsmul_le_of_le (add_nonneg hB0 hB0) (by omega)).trans hB.le
  set x0 := argmin1 (valueFn M.LT M.stages) with hx0
  obtain ⟨us, xs, hfb, hul, hxl, hon⟩ := C09_fwdbwd_on_optimal inf M x0 hT
    (C09_below_sentinel_of_bounded inf (B + B) M x0 hLT hL (by rw [hlenM]; exact hB))
  have h2 : pyGet M.seqBackwardPass.2 0 = .ok (valueFn M.LT M.stages) := by
    rw [pyGet_ok, seqBackwardPass_eq]; exact valList_get M.LT M.stages (Nat.zero_le _)
  have hpar : H.parBwdFwdBwdViterbi inf nl ys = .ok (xs.reverse, M.seqBackwardPass.2.reverse) := by
    unfold HMM.parBwdFwdBwdViterbi
    rw [getFSC_eq H ys hys]
    show (do
      let r ← M.parBackwardPass inf
      let x0 := argmin1 (← pyGet r.2 0)
      let r' ← M.parFwdBwdPass inf x0 r.1 r.2
      return fscToViterbi r'.2 r.2) = _
    rw [key]
    show (do
      let x0 := argmin1 (← pyGet M.seqBackwardPass.2 0)
      let r' ← M.parFwdBwdPass inf x0 M.seqBackwardPass.1 M.seqBackwardPass.2
      return fscToViterbi r'.2 M.seqBackwardPass.2) = _
    rw [h2]
    show (do
      let r' ← M.parFwdBwdPass inf x0 M.seqBackwardPass.1 M.seqBackwardPass.2
      return fscToViterbi r'.2 M.seqBackwardPass.2) = _
    rw [hfb]
    rfl
  obtain ⟨sp, Vs, hlog, hmap⟩ := C14_log_isMAP h H hH ys
  rw [refViterbiLog_eq, ← C15_reduction_exact h H hH ys hys] at hlog
  have hVs : Vs = M.seqBackwardPass.2.reverse := by
    rw [seqViterbi_eq' H ys hys] at hlog
    simp only [fscToViterbi, Except.ok.injEq, Prod.mk.injEq] at hlog
    rw [← hlog.2, seqBackwardPass_eq]
  have hopt : ∀ us, IsOptimal M.LT M.stages x0 us → H.IsMAP ys (x0 :: us).reverse :=
    fun us hus => isMAP_of_isOptimal h hH ys us hus
  have hMAP : ∀ k ≤ ys.length, ∃ p, H.IsMAP ys p ∧ xs.reverse[k]? = p[k]? := by
    intro k hk
    obtain ⟨x, hx, _, vs, hvs, hst, _⟩ := hon (ys.length - k) (by omega)
    refine ⟨(x0 :: vs).reverse, hopt vs hvs, ?_⟩
    have hvl : vs.length = ys.length := by rw [hvs.1, hlenM]
    rw [List.getElem?_reverse (by omega), List.getElem?_reverse (by simp; omega)]
    have e1 : xs.length - 1 - k = ys.length - k := by omega
    have e2 : (x0 :: vs).length - 1 - k = ys.length - k := by simp; omega
    rw [e1, e2, hx, ← hst]
    have := statesOf_get M.stages x0 vs (k := ys.length - k) (by omega)
    rw [← this, hM]
    simp only
    rw [statesOf_stages H _ _ _ (by simp [hvl])]
  refine ⟨_, sp, _, hpar, hVs ▸ hlog, by simp [hxl, hlenM], hmap, hMAP, fun huniq => ?_⟩
  apply list_ext_of (n := ys.length + 1) (by simp [hxl, hlenM]) hmap.1
  intro k hk
  obtain ⟨p, hp1, hp2⟩ := hMAP k (by omega)
  rw [hp2, huniq p sp hp1 hmap]

/-! ## C17 -/

section C17
variable [CommSemiring P] [LinearOrder P] [AddCommMonoid K] [LinearOrder K] [IsOrderedAddMonoid K] [NeZero n]
  {S : P → Prop} {nl : P → K}

/-- **C17** (sequential): for every way of breaking ties, `viterbi_seq_fwbw` returns the value functions of
`ref_viterbi_log_v2` and a maximum a posteriori path, zero probabilities included. -/
theorem C17_seq {am : (Fin n → K) → Fin n} (ham : IsArgmin am) (h : IsNegLog S nl) (H : HMM n q P) (hH : H.All S)
    (ys : List (Fin q)) :
    ∃ p p' Vs, H.tfSeqFwBw am nl ys = .ok (p, Vs) ∧ H.refViterbiLog2 nl ys = .ok (p', Vs) ∧ H.IsMAP ys p := by
  rw [tfSeqFwBw_eq, refViterbiLog2_eq]
  exact ⟨_, _, _, rfl, rfl, backFold_isMAP ham h hH ys⟩

omit [CommSemiring P] [LinearOrder P] [IsOrderedAddMonoid K] in
/-- **C17** (same tie rule): if `tf.argmin` takes the first minimiser, as `np.argmin` does, the result is exactly that
of `ref_viterbi_log_v2`. -/
theorem C17_seq_eq (H : HMM n q P) (ys : List (Fin q)) : H.tfSeqFwBw argmin1 nl ys = H.refViterbiLog2 nl ys := by
  rw [tfSeqFwBw_eq, refViterbiLog2_eq, logPols_eq_amPols]

omit [CommSemiring P] [LinearOrder P] in
/-- **C17** (parallel): with any correct scan primitive and any tie rule `viterbi_par_fwbw` and `viterbi_seqpar_fwbw`
return exactly what `viterbi_seq_fwbw` returns. -/
theorem C17_par_eq_seq
    {scanV : ((Fin n → Fin n → K) → (Fin n → Fin n → K) → Py (Fin n → Fin n → K)) →
      List (Fin n → Fin n → K) → Py (List (Fin n → Fin n → K))} (hV : IsAssocScan scanV)
    {scanF : ((Fin n → Fin n) → (Fin n → Fin n) → Py (Fin n → Fin n)) →
      List (Fin n → Fin n) → Py (List (Fin n → Fin n))} (hF : IsAssocScan scanF)
    (am : (Fin n → K) → Fin n) (H : HMM n q P) (ys : List (Fin q)) :
    H.tfParFwBw scanV scanF am nl ys = H.tfSeqFwBw am nl ys ∧
    H.tfSeqParFwBw scanF am nl ys = H.tfSeqFwBw am nl ys := tfParFwBw_eq hV hF am H ys

/-- **C17** (two-sided): `viterbi_par_fwbwfw` returns the same value functions, and each state it returns lies on a
maximum a posteriori path at its position; if that path is unique it is returned. -/
theorem C17_fwbwfw
    {scan : ((Fin n → Fin n → K) → (Fin n → Fin n → K) → Py (Fin n → Fin n → K)) →
      List (Fin n → Fin n → K) → Py (List (Fin n → Fin n → K))} (hs : IsAssocScan scan)
    {am : (Fin n → K) → Fin n} (ham : IsArgmin am) (h : IsNegLog S nl) (H : HMM n q P) (hH : H.All S)
    (ys : List (Fin q)) :
    ∃ xs p Vs, H.tfParFwBwFw scan am nl ys = .ok (xs, Vs) ∧ H.tfSeqFwBw am nl ys = .ok (p, Vs) ∧
      xs.length = ys.length + 1 ∧ (∀ k ≤ ys.length, ∃ p', H.IsMAP ys p' ∧ xs[k]? = p'[k]?) ∧
      ((∀ p p', H.IsMAP ys p → H.IsMAP ys p' → p = p') → xs = p) := by
  obtain ⟨Vfs, h1, h2, h3⟩ := tfParBwFw_eq (nl := nl) hs am H ys (H.tfSeqForward am nl ys).2
  rw [tfSeqForward_eq] at h1
  simp only at h1
  set xs := Vfs.zipWith (fun Vf V => am fun x => Vf x + V x) (accList (H.logStep nl) (H.nlPrior nl) ys) with hxs
  have hxl : xs.length = ys.length + 1 := by simp [hxs, h2, accList_length]
  have hMAP : ∀ k ≤ ys.length, ∃ p', H.IsMAP ys p' ∧ xs[k]? = p'[k]? := by
    intro k hk
    obtain ⟨p', hp1, hp2⟩ := twoSided_isMAP ham h hH ys k hk
    refine ⟨p', hp1, ?_⟩
    rw [hp2, hxs, List.getElem?_zipWith, h3 k hk, accList_get _ _ _ _ hk]
  refine ⟨xs, _, accList (H.logStep nl) (H.nlPrior nl) ys, ?_, tfSeqFwBw_eq am H ys, hxl, hMAP, fun huniq => ?_⟩
  · unfold HMM.tfParFwBwFw
    rw [tfParForward_eq hs, tfSeqForward_eq]
    show (do
      let s ← H.tfParBwFw scan am nl ys (accList (H.logStep nl) (H.nlPrior nl) ys)
      return (s.1, accList (H.logStep nl) (H.nlPrior nl) ys)) = _
    rw [h1]
    rfl
  · have hm := backFold_isMAP ham h hH ys
    apply list_ext_of (n := ys.length + 1) hxl hm.1
    intro k hk
    obtain ⟨p, hp1, hp2⟩ := hMAP k (by omega)
    rw [hp2, huniq p _ hp1 hm]

/-- The contract of the scan primitive is satisfiable: the repository's own scan meets it. -/
theorem C17_scan_example {α : Type} : IsAssocScan (fun (op : α → α → Py α) l => scanVals op l) where
  pref h := scanVals_prefix h
  total P hc hne hl := scanVals_total (P := P) hc hne hl false

example : IsArgmin (argmin1 : (Fin 3 → WithTop ℕ) → Fin 3) := isArgmin_argmin1
example : (someHMM.tfParFwBwFw (fun op l => scanVals op l) argmin1 nl01 [0, 0]).map Prod.fst = .ok [1, 0, 1] := by decide
example : (someHMM.tfParFwBw (fun op l => scanVals op l) (fun op l => scanVals op l) argmin1 nl01 [0, 0]).map Prod.fst =
    .ok [1, 0, 1] := by decide

end C17

end Verif
