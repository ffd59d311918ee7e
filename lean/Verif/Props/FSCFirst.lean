import Verif.Proof.FSCFirst
import Verif.Props.ViterbiTests

/-!
# C119: which states the forward value passes return
-/

namespace Verif

variable {n m q : ℕ} {P K : Type}

section Control
variable [AddCommMonoid K] [LinearOrder K] [IsOrderedCancelAddMonoid K] [NeZero n] [NeZero m]

/-- **C119** (states): below the sentinel, the state that `parFwdBwdPass` or `parFwdBwdPass2` returns for step `k` is the least
one that some optimal trajectory from `x0` visits at step `k`. -/
theorem C119_first (inf : K) (M : FSC n m K) (x0 : Fin n) (hT : M.stages ≠ []) (h : BelowSentinel inf M x0) :
    (∃ us xs, M.parFwdBwdPass inf x0 M.seqBackwardPass.1 M.seqBackwardPass.2 = .ok (us, xs) ∧
      xs.length = M.stages.length + 1 ∧ ∀ k ≤ M.stages.length, ∃ x, xs[k]? = some x ∧
        IsLeast {y | ∃ vs, IsOptimal M.LT M.stages x0 vs ∧ stateAt M.stages x0 vs k = y} x) ∧
    (∃ us xs, M.parFwdBwdPass2 inf x0 M.seqBackwardPass.1 M.seqBackwardPass.2 = .ok (us, xs) ∧
      xs.length = M.stages.length + 1 ∧ ∀ k ≤ M.stages.length, ∃ x, xs[k]? = some x ∧
        IsLeast {y | ∃ vs, IsOptimal M.LT M.stages x0 vs ∧ stateAt M.stages x0 vs k = y} x) := by
  rw [seqBackwardPass_eq]
  obtain ⟨us, xs, h1, -, h2, h3⟩ := parFwdBwdPass_least inf M x0 hT h.conv.1 h.conv.2
  obtain ⟨us', xs', h1', -, h2', h3'⟩ := parFwdBwdPass2_least inf M x0 hT h.conv.1
  refine ⟨⟨us, xs, h1, h2, fun k hk => ?_⟩, ⟨us', xs', h1', h2', fun k hk => ?_⟩⟩
  · obtain ⟨x, hx, -, hl⟩ := h3 k hk
    exact ⟨x, hx, hl⟩
  · obtain ⟨x, hx, -, hl⟩ := h3' k hk
    exact ⟨x, hx, hl⟩

/-- **C119** (agreement): below the sentinel the two forward value passes return the same controls and states, ties included. -/
theorem C119_same (inf : K) (M : FSC n m K) (x0 : Fin n) (hT : M.stages ≠ []) (h : BelowSentinel inf M x0) :
    M.parFwdBwdPass inf x0 M.seqBackwardPass.1 M.seqBackwardPass.2 =
      M.parFwdBwdPass2 inf x0 M.seqBackwardPass.1 M.seqBackwardPass.2 := by
  rw [seqBackwardPass_eq]
  obtain ⟨us, xs, h1, hu, h2, h3⟩ := parFwdBwdPass_least inf M x0 hT h.conv.1 h.conv.2
  obtain ⟨us', xs', h1', hu', h2', h3'⟩ := parFwdBwdPass2_least inf M x0 hT h.conv.1
  have key : ∀ k ≤ M.stages.length, xs[k]? = xs'[k]? ∧ us[k]? = us'[k]? := by
    intro k hk
    obtain ⟨x, hx, hux, hl⟩ := h3 k hk
    obtain ⟨x', hx', hux', hl'⟩ := h3' k hk
    obtain rfl := hl.unique hl'
    exact ⟨hx.trans hx'.symm, hux.trans hux'.symm⟩
  have e1 : xs = xs' := list_ext_of h2 h2' fun k hk => (key k (by omega)).1
  have e2 : us = us' := list_ext_of hu hu' fun k hk => (key k (by omega)).2
  rw [h1, h1', e1, e2]

/-- Three steps, three states. -/
example : ∃ us xs, exFSC.parFwdBwdPass (10 ^ 20) 0 exFSC.seqBackwardPass.1 exFSC.seqBackwardPass.2 = .ok (us, xs) ∧
    xs.length = 4 ∧ ∀ k ≤ 3, ∃ x, xs[k]? = some x ∧
      IsLeast {y | ∃ vs, IsOptimal exFSC.LT exFSC.stages 0 vs ∧ stateAt exFSC.stages 0 vs k = y} x :=
  (C119_first _ exFSC 0 (by decide) (below_of_bound (10 ^ 20) 5 exFSC 0 (by decide) (by decide) (by decide))).1

/-- The problem with ties of C09. -/
example : tieFSC.parFwdBwdPass (10 ^ 20) 0 tieFSC.seqBackwardPass.1 tieFSC.seqBackwardPass.2 =
    tieFSC.parFwdBwdPass2 (10 ^ 20) 0 tieFSC.seqBackwardPass.1 tieFSC.seqBackwardPass.2 :=
  C119_same _ tieFSC 0 (by decide) (below_of_bound (10 ^ 20) 0 tieFSC 0 (by decide) (by decide) (by decide))

end Control

/-- **C119** (decoder): below the sentinel `parBwdFwdBwdViterbi` ends in the least state `z` in which some most probable path
ends, and at every other time returns the least state visited by a most probable path that ends in `z`. -/
theorem C119_viterbi [CommSemiring P] [LinearOrder P] [AddCommGroup K] [LinearOrder K] [IsOrderedAddMonoid K]
    [NeZero n] {S : P → Prop} {nl : P → K} (h : IsNegLog S nl) (H : HMM n q P) (hH : H.All S) (inf B : K)
    (hp : ∀ x, |nl (H.prior x)| ≤ B) (hPi : ∀ i j, |nl (H.Pi i j)| ≤ B) (hPo : ∀ i y, |nl (H.Po i y)| ≤ B)
    (ys : List (Fin q)) (hys : ys ≠ []) (hB : (2 * ys.length + 2) • (B + B) < inf) :
    ∃ path Vs z, H.parBwdFwdBwdViterbi inf nl ys = .ok (path, Vs) ∧ path.length = ys.length + 1 ∧
      IsLeast {x | ∃ p, H.IsMAP ys p ∧ p[ys.length]? = some x} z ∧
      ∀ k ≤ ys.length, ∃ x, path[k]? = some x ∧
        IsLeast {y | ∃ p, H.IsMAP ys p ∧ p[ys.length]? = some z ∧ p[k]? = some y} x := by
  set M : FSC n n K := ⟨ys.reverse.map (H.stage nl), H.nlPrior nl⟩ with hM
  have hB0 : 0 ≤ B := (abs_nonneg _).trans (hp 0)
  have hT : M.stages ≠ [] := by simp [hM, hys]
  have hLT : ∀ x, |M.LT x| ≤ B + B := fun x => (hp x).trans (le_add_of_nonneg_left hB0)
  have hL : ∀ s ∈ M.stages, ∀ x u, |s.L x u| ≤ B + B := by
    intro s hs x u
    obtain ⟨y, _, rfl⟩ := List.mem_map.1 hs
    show |nl (H.Pi u x * H.Po x y)| ≤ B + B
    rw [h.nl_mul (hH.Pi _ _) (hH.Po _ _)]
    exact (abs_add_le _ _).trans (add_le_add (hPi _ _) (hPo _ _))
  have hlenM : M.stages.length = ys.length := by simp [hM]
  have key : M.parBackwardPass inf = .ok M.seqBackwardPass := by
    apply C07_par_eq_seq_bounded inf (B + B) M hT hLT hL
    rw [hlenM]
    exact (nsmul_le_of_le (add_nonneg hB0 hB0) (by omega)).trans hB.le
  set x0 := argmin1 (valueFn M.LT M.stages) with hx0
  obtain ⟨⟨us, xs, hfb, hxl, hon⟩, -⟩ := C119_first inf M x0 hT
    (C09_below_sentinel_of_bounded inf (B + B) M x0 hLT hL (by rw [hlenM]; exact hB))
  have h2 : pyGet M.seqBackwardPass.2 0 = .ok (valueFn M.LT M.stages) := by
    rw [pyGet_ok, seqBackwardPass_eq]; exact valList_get M.LT M.stages (Nat.zero_le _)
  have hpar : H.parBwdFwdBwdViterbi inf nl ys = .ok (xs.reverse, M.seqBackwardPass.2.reverse) := by
    unfold HMM.parBwdFwdBwdViterbi
    rw [getFSC_eq H ys hys]
    show (do
      let r ← M.parBackwardPass inf
      let x0 := argmin1 (← pyGet r.2 0)
      let r' ← M.parFwdBwdPass inf x0 r.1 r.2
      return fscToViterbi r'.2 r.2) = _
    rw [key]
    show (do
      let x0 := argmin1 (← pyGet M.seqBackwardPass.2 0)
      let r' ← M.parFwdBwdPass inf x0 M.seqBackwardPass.1 M.seqBackwardPass.2
      return fscToViterbi r'.2 M.seqBackwardPass.2) = _
    rw [h2]
    show (do
      let r' ← M.parFwdBwdPass inf x0 M.seqBackwardPass.1 M.seqBackwardPass.2
      return fscToViterbi r'.2 M.seqBackwardPass.2) = _
    rw [hfb]
    rfl
  have hcost : ∀ (x : Fin n) (vs : List (Fin n)), vs.length = ys.length →
      totalCost M.LT M.stages x vs = nl (H.jointProb ys (x :: vs).reverse) := by
    intro x vs hv
    have := totalCost_stages h hH ys.reverse vs x (by simp [hv])
    rwa [List.reverse_reverse] at this
  have hopt : ∀ vs, IsOptimal M.LT M.stages x0 vs → H.IsMAP ys (x0 :: vs).reverse :=
    fun vs hvs => isMAP_of_isOptimal h hH ys vs hvs
  obtain ⟨g, hg⟩ : ∃ g, IsOptimal M.LT M.stages x0 g :=
    ⟨greedy M.LT M.stages x0, (isOptimal_iff _ _ _ _ (greedy_length _ _ _)).2 (greedy_cost _ _ _)⟩
  -- a most probable path, read backwards
  have hrev : ∀ p, H.IsMAP ys p → ∃ x vs, p = (x :: vs).reverse ∧ vs.length = ys.length ∧
      totalCost M.LT M.stages x vs = valueFn M.LT M.stages x0 := by
    intro p hpm
    cases hr : p.reverse with
    | nil =>
      have h0 := congrArg List.length hr
      have h1 := hpm.1
      simp at h0
      simp [h0] at h1
    | cons x vs =>
      have hpe : p = (x :: vs).reverse := by rw [← hr, List.reverse_reverse]
      have hv : vs.length = ys.length := by
        have h1 := hpm.1
        rw [hpe] at h1
        simpa using h1
      refine ⟨x, vs, hpe, hv, ?_⟩
      rw [hcost x vs hv, ← (isOptimal_iff _ _ _ _ hg.1).1 hg, hcost x0 g (hg.1.trans hlenM), ← hpe]
      apply le_antisymm
      · exact (h.nl_le (jointProb_mem h hH _ _) (jointProb_mem h hH _ _)).2 (hpm.2 _ (hopt g hg).1)
      · exact (h.nl_le (jointProb_mem h hH _ _) (jointProb_mem h hH _ _)).2 ((hopt g hg).2 _ hpm.1)
  have hget : ∀ (x : Fin n) (vs : List (Fin n)), vs.length = ys.length → ∀ k ≤ ys.length,
      (x :: vs).reverse[k]? = some (stateAt M.stages x vs (ys.length - k)) := by
    intro x vs hv k hk
    rw [List.getElem?_reverse (by simp; omega)]
    have e2 : (x :: vs).length - 1 - k = ys.length - k := by simp; omega
    rw [e2, ← statesOf_get M.stages x vs (k := ys.length - k) (by omega), hM]
    simp only
    rw [statesOf_stages H _ _ _ (by simp [hv])]
  refine ⟨_, _, x0, hpar, by simp [hxl, hlenM], ⟨⟨_, hopt g hg, ?_⟩, ?_⟩, fun k hk => ?_⟩
  · rw [hget x0 g (hg.1.trans hlenM) _ le_rfl, Nat.sub_self, stateAt_zero]
  · rintro x ⟨p, hpm, hpx⟩
    obtain ⟨x', vs, rfl, hv, hc⟩ := hrev p hpm
    rw [hget x' vs hv _ le_rfl, Nat.sub_self, stateAt_zero] at hpx
    obtain rfl := Option.some.inj hpx
    by_contra hlt
    have h1 := argmin1_first (valueFn M.LT M.stages) _ (not_le.1 hlt)
    exact absurd ((valueFn_le M.LT M.stages _ vs (hv.trans hlenM.symm)).trans hc.le) (not_le.2 h1)
  · obtain ⟨x, hx, hl⟩ := hon (ys.length - k) (by omega)
    refine ⟨x, ?_, ?_⟩
    · rw [List.getElem?_reverse (by omega)]
      have e1 : xs.length - 1 - k = ys.length - k := by omega
      rw [e1, hx]
    · convert hl using 1
      ext y
      constructor
      · rintro ⟨p, hpm, hpz, hpy⟩
        obtain ⟨x', vs, rfl, hv, hc⟩ := hrev p hpm
        rw [hget x' vs hv _ le_rfl, Nat.sub_self, stateAt_zero] at hpz
        obtain rfl := Option.some.inj hpz
        rw [hget _ vs hv k hk] at hpy
        exact ⟨vs, (isOptimal_iff _ _ _ _ (hv.trans hlenM.symm)).2 hc, Option.some.inj hpy⟩
      · rintro ⟨vs, hvs, rfl⟩
        have hv := hvs.1.trans hlenM
        exact ⟨_, hopt vs hvs, by rw [hget x0 vs hv _ le_rfl, Nat.sub_self, stateAt_zero], hget x0 vs hv k hk⟩

/-- A hidden Markov model with positive probabilities for which three paths are most probable if `0` is observed twice. -/
noncomputable def tieHMM : HMM 2 2 ℝ :=
  ⟨fun _ => 1 / 2, fun i j => if i = j then 1 / 4 else 3 / 4, fun x y => if x = y then 3 / 4 else 1 / 4⟩

theorem tieHMM_pos : tieHMM.All (fun p => 0 < p) where
  prior x := by simp [tieHMM]
  Pi i j := by simp only [tieHMM]; split <;> norm_num
  Po i y := by simp only [tieHMM]; split <;> norm_num

theorem tieHMM_bound : tieHMM.All (fun p => |negLog p| ≤ 3) := by
  have key : ∀ p : ℝ, 1 / 4 ≤ p → p ≤ 1 → |negLog p| ≤ 3 := by
    intro p h1 h2
    have e1 : Real.log p ≤ 0 := Real.log_nonpos (by linarith) h2
    have e2 := Real.one_sub_inv_le_log_of_pos (by linarith : 0 < p)
    have e3 : p⁻¹ ≤ 4 := by
      rw [inv_le_comm₀ (by linarith) (by norm_num)]
      linarith
    show |-Real.log p| ≤ 3
    rw [abs_le]
    constructor <;> linarith
  refine ⟨fun x => ?_, fun i j => ?_, fun i y => ?_⟩
  · exact key _ (by norm_num [tieHMM]) (by norm_num [tieHMM])
  · simp only [tieHMM]; split <;> exact key _ (by norm_num) (by norm_num)
  · simp only [tieHMM]; split <;> exact key _ (by norm_num) (by norm_num)

theorem tieHMM_map : tieHMM.IsMAP [0, 0] [1, 0, 0] ∧ tieHMM.IsMAP [0, 0] [0, 1, 0] ∧ ¬ tieHMM.IsMAP [0, 0] [0, 0, 0] := by
  have key : ∀ a b c : Fin 2, tieHMM.jointProb [0, 0] [a, b, c] ≤ 27 / 512 := by
    intro a b c
    fin_cases a <;> fin_cases b <;> fin_cases c <;> norm_num [HMM.jointProb, HMM.tailProb, tieHMM]
  have all : ∀ p : List (Fin 2), p.length = 3 → tieHMM.jointProb [0, 0] p ≤ 27 / 512 := by
    intro p hp
    match p, hp with
    | [a, b, c], _ => exact key a b c
  have e1 : tieHMM.jointProb [0, 0] [1, 0, 0] = 27 / 512 := by norm_num [HMM.jointProb, HMM.tailProb, tieHMM]
  have e2 : tieHMM.jointProb [0, 0] [0, 1, 0] = 27 / 512 := by norm_num [HMM.jointProb, HMM.tailProb, tieHMM]
  have e3 : tieHMM.jointProb [0, 0] [0, 0, 0] = 9 / 512 := by norm_num [HMM.jointProb, HMM.tailProb, tieHMM]
  refine ⟨⟨rfl, fun p hp => e1 ▸ all p hp⟩, ⟨rfl, fun p hp => e2 ▸ all p hp⟩, fun h => ?_⟩
  have := h.2 [1, 0, 0] rfl
  rw [e1, e3] at this
  norm_num at this

/-- **C119** (ties): with positive probabilities, rows that sum to one and two observations, `parBwdFwdBwdViterbi` can combine
two most probable paths into one that is not most probable, and `test_par_viterbi_2` fails. -/
theorem C119_ties : tieHMM.All (fun p => 0 < p) ∧ (∀ i, ∑ j, tieHMM.Pi i j = 1) ∧ (∀ i, ∑ y, tieHMM.Po i y = 1) ∧
    (tieHMM.parBwdFwdBwdViterbi (10 ^ 20) negLog [0, 0]).map Prod.fst = .ok [0, 0, 0] ∧
    ¬ tieHMM.IsMAP [0, 0] [0, 0, 0] ∧ Passes (vitTestPar1 tieHMM [0, 0]) ∧ ¬ Passes (vitTestPar2 tieHMM [0, 0]) := by
  obtain ⟨m1, m2, m3⟩ := tieHMM_map
  obtain ⟨path, Vs, z, h1, hl, hz, hk⟩ := C119_viterbi negLog_spec tieHMM tieHMM_pos (10 ^ 20) 3 tieHMM_bound.prior
    tieHMM_bound.Pi tieHMM_bound.Po [0, 0] (by simp) (by norm_num)
  obtain rfl : z = 0 := le_antisymm (hz.2 ⟨_, m1, rfl⟩) (Fin.zero_le z)
  have hpath : path = [0, 0, 0] := by
    refine list_ext_of (n := 3) hl rfl fun k hk3 => ?_
    obtain ⟨x, hx, hle⟩ := hk k (by simp; omega)
    have hx0 : x = 0 := by
      refine le_antisymm (hle.2 ?_) (Fin.zero_le x)
      interval_cases k
      · exact ⟨_, m2, rfl, rfl⟩
      · exact ⟨_, m1, rfl, rfl⟩
      · exact ⟨_, m1, rfl, rfl⟩
    rw [hx, hx0]
    interval_cases k <;> rfl
  have hpar := C118_par tieHMM tieHMM_pos 3 tieHMM_bound [0, 0] (by simp) (by norm_num)
  refine ⟨tieHMM_pos, fun i => ?_, fun i => ?_, by rw [h1, hpath]; rfl, m3, hpar.1, fun hpass => ?_⟩
  · fin_cases i <;> norm_num [tieHMM, Fin.sum_univ_two]
  · fin_cases i <;> norm_num [tieHMM, Fin.sum_univ_two]
  · have heq := hpar.2.1.1 hpass
    obtain ⟨p, V, hlog, hmap⟩ := C14_log_isMAP negLog_spec tieHMM tieHMM_pos [0, 0]
    rw [(C14_log_eq_log2 (nl := negLog) tieHMM [0, 0]).1] at hlog
    rw [h1, hlog, hpath] at heq
    obtain rfl : [0, 0, 0] = p := Except.ok.inj heq
    exact m3 hmap

end Verif
