import Verif.Proof.SQP

/-! Helper lemmas for the loops of `Verif.Model.SQP`. -/

namespace Verif

open Matrix

variable {n m : ℕ} {K : Type} [Field K]

section Local
variable [LinearOrder K]

theorem sqpStep_ok {P : NLP n m K} {norm : (Fin n → K) → K} {x : Fin n → K} {lam : Fin m → K}
    {r : (Fin n → K) × (Fin m → K) × K} :
    P.localStep norm x lam = .ok r ↔ ∃ p hlam, lqeSolve (P.hlag x lam) (P.dfun x) (P.dcon x) (-P.con x) = .ok (p, hlam) ∧
      r = (x + p, hlam, norm (P.dlag x lam)) := by
  unfold NLP.localStep
  dsimp only
  cases h : lqeSolve (P.hlag x lam) (P.dfun x) (P.dcon x) (-P.con x) with
  | error e => simp [bind, Except.bind]
  | ok q =>
    obtain ⟨p, hlam⟩ := q
    simp only [bind, Except.bind, pure, Except.pure, Except.ok.injEq, Prod.mk.injEq]
    constructor
    · rintro rfl; exact ⟨p, hlam, ⟨rfl, rfl⟩, rfl⟩
    · rintro ⟨p', h', ⟨rfl, rfl⟩, rfl⟩; rfl

theorem fastLoop_zero (P : NLP n m K) (norm : (Fin n → K) → K) (st) : P.localFastLoop norm 0 st = .ok st := rfl

theorem fastLoop_succ (P : NLP n m K) (norm : (Fin n → K) → K) (k : ℕ) (st) :
    P.localFastLoop norm (k + 1) st = P.localStep norm st.1 st.2.1 >>= P.localFastLoop norm k := by
  unfold NLP.localFastLoop
  have h : ∀ (l l' : List ℕ) (s : (Fin n → K) × (Fin m → K) × K), l.length = l'.length →
      l.foldlM (fun st _ => P.localStep norm st.1 st.2.1) s = l'.foldlM (fun st _ => P.localStep norm st.1 st.2.1) s := by
    intro l
    induction l with
    | nil => intro l' s hl; cases l' with
      | nil => rfl
      | cons a l' => simp at hl
    | cons a l ih => intro l' s hl; cases l' with
      | nil => simp at hl
      | cons b l' =>
        rw [List.foldlM_cons, List.foldlM_cons]
        congr 1
        ext1 s'
        exact ih l' s' (by simpa using hl)
  rw [List.range_succ_eq_map, List.foldlM_cons]
  congr 1
  ext1 s
  exact h _ _ _ (by simp)

theorem localLoop_spec (P : NLP n m K) (norm : (Fin n → K) → K) (tol : K) : ∀ (fuel : ℕ) (x : Fin n → K) (lam : Fin m → K)
    (iter : ℕ) (crit : K) (x' : Fin n → K) (lam' : Fin m → K) (iter' : ℕ) (crit' : K),
    P.localLoop norm tol fuel x lam iter crit = .ok (x', lam', iter', crit') →
    ∃ k ≤ fuel, iter' = iter + k ∧ P.localFastLoop norm k (x, lam, crit) = .ok (x', lam', crit') ∧
      (k < fuel → crit' ≤ tol) ∧
      ∀ j < k, ∀ st, P.localFastLoop norm j (x, lam, crit) = .ok st → tol < st.2.2
  | 0, x, lam, iter, crit, x', lam', iter', crit', h => by
    cases h
    exact ⟨0, le_refl _, rfl, rfl, by simp, by simp⟩
  | fuel + 1, x, lam, iter, crit, x', lam', iter', crit', h => by
    unfold NLP.localLoop at h
    split_ifs at h with hc
    · cases hst : P.localStep norm x lam with
      | error e => rw [hst] at h; cases h
      | ok r =>
        obtain ⟨x1, lam1, c1⟩ := r
        rw [hst] at h
        obtain ⟨k, hk, h1, h2, h3, h4⟩ := localLoop_spec P norm tol fuel x1 lam1 (iter + 1) c1 x' lam' iter' crit' h
        refine ⟨k + 1, by omega, by omega, ?_, fun hlt => h3 (by omega), ?_⟩
        · rw [fastLoop_succ]; dsimp only; rw [hst]; exact h2
        · intro j hj st hst'
          cases j with
          | zero => cases hst'; exact hc
          | succ j =>
            rw [fastLoop_succ] at hst'; dsimp only at hst'; rw [hst] at hst'
            exact h4 j (by omega) st hst'
    · cases h
      exact ⟨0, Nat.zero_le _, rfl, rfl, fun _ => not_lt.1 hc, by simp⟩

/-- The scan in TensorFlow returns the states of the loop. -/
theorem scanTF_spec (P : NLP n m K) (norm : (Fin n → K) → K) : ∀ (k : ℕ) (st) (l),
    P.localFastScanTF norm k st = .ok l →
    l.length = k ∧ ∀ j (hj : j < l.length), P.localFastLoop norm (j + 1) st = .ok l[j]
  | 0, st, l, h => by cases h; simp
  | k + 1, st, l, h => by
    unfold NLP.localFastScanTF at h
    cases hst : P.localStep norm st.1 st.2.1 with
    | error e => rw [hst] at h; cases h
    | ok st' =>
      rw [hst] at h
      cases hl : P.localFastScanTF norm k st' with
      | error e =>
        have : (Except.error e : Py (List ((Fin n → K) × (Fin m → K) × K))) = .ok l := by
          simpa [hl, bind, Except.bind] using h
        cases this
      | ok l' =>
        have : st' :: l' = l := by simpa [hl, bind, Except.bind, pure, Except.pure] using h
        subst this
        obtain ⟨h1, h2⟩ := scanTF_spec P norm k st' l' hl
        refine ⟨by simp [h1], ?_⟩
        intro j hj
        rw [fastLoop_succ, hst]
        cases j with
        | zero => rfl
        | succ j => exact h2 j (by simpa using hj)

theorem scanTF_error (P : NLP n m K) (norm : (Fin n → K) → K) : ∀ (k : ℕ) (st) (e),
    P.localFastScanTF norm k st = .error e ↔ P.localFastLoop norm k st = .error e
  | 0, st, e => by simp [NLP.localFastScanTF, fastLoop_zero]
  | k + 1, st, e => by
    unfold NLP.localFastScanTF
    rw [fastLoop_succ]
    cases hst : P.localStep norm st.1 st.2.1 with
    | error e' => simp [bind, Except.bind]
    | ok st' =>
      have := scanTF_error P norm k st' e
      cases hl : P.localFastScanTF norm k st' with
      | error e' => rw [hl] at this; simpa [hl, bind, Except.bind] using this
      | ok l => rw [hl] at this; simpa [hl, bind, Except.bind, pure, Except.pure] using this

end Local

section Search
variable [LinearOrder K]

theorem backtrack_spec (P : NLP n m K) (mu : K) (x p : Fin n → K) (m0 : K) : ∀ (fuel : ℕ) (alf : K) (bt : ℕ),
    ∃ i ≤ fuel, P.backtrack mu x p m0 fuel alf bt = ((1 / 2 : K) ^ i * alf, bt + i) ∧
      (∀ l < i, m0 < P.merit (x + ((1 / 2 : K) ^ l * alf) • p) mu) ∧
      (i < fuel → P.merit (x + ((1 / 2 : K) ^ i * alf) • p) mu ≤ m0)
  | 0, alf, bt => ⟨0, le_refl _, by simp [NLP.backtrack], by simp, by simp⟩
  | fuel + 1, alf, bt => by
    unfold NLP.backtrack
    split_ifs with h
    · obtain ⟨i, hi, h1, h2, h3⟩ := backtrack_spec P mu x p m0 fuel ((1 / 2 : K) * alf) (bt + 1)
      have e : ∀ l : ℕ, (1 / 2 : K) ^ l * ((1 / 2 : K) * alf) = (1 / 2 : K) ^ (l + 1) * alf := by intro l; ring
      refine ⟨i + 1, by omega, ?_, ?_, ?_⟩
      · rw [h1, e]; congr 1; omega
      · intro l hl
        cases l with
        | zero => simpa using h
        | succ l => rw [← e]; exact h2 l (by omega)
      · intro hlt; rw [← e]; exact h3 (by omega)
    · exact ⟨0, Nat.zero_le _, by simp, by simp, fun _ => by simpa using h⟩

theorem lineSearch_spec (P : NLP n m K) (mu : K) (x p : Fin n → K) (mb : ℕ) :
    (∃ i < mb, P.lineSearch mu x p mb = (1 / 2 : K) ^ i ∧ P.merit (x + (1 / 2 : K) ^ i • p) mu ≤ P.merit x mu ∧
      ∀ l < i, P.merit x mu < P.merit (x + (1 / 2 : K) ^ l • p) mu) ∨
    (P.lineSearch mu x p mb = 1 ∧ ∀ l < mb, P.merit x mu < P.merit (x + (1 / 2 : K) ^ l • p) mu) := by
  obtain ⟨i, hi, h1, h2, h3⟩ := backtrack_spec P mu x p (P.merit x mu) mb 1 0
  simp only [mul_one, zero_add] at h1 h2 h3
  unfold NLP.lineSearch
  dsimp only
  rw [h1]
  by_cases h : i = mb
  · right
    refine ⟨by simp [h], ?_⟩
    rw [← h]; exact h2
  · left
    have hlt : i < mb := by omega
    refine ⟨i, hlt, by simp [h], h3 hlt, h2⟩

theorem lineSearch_zero (P : NLP n m K) (mu : K) (x : Fin n → K) (mb : ℕ) : P.lineSearch mu x 0 mb = 1 := by
  rcases lineSearch_spec P mu x 0 mb with ⟨i, hi, h1, h2, h3⟩ | h
  · cases i with
    | zero => simpa using h1
    | succ i => exact absurd (h3 0 (by omega)) (by simp)
  · exact h.1

end Search

section BFGS
variable [LinearOrder K]

theorem bfgsStep_ok {P : NLP n m K} {norm : (Fin n → K) → K} {mb : ℕ} {damped : Bool} {st st' : BfgsState n m K} :
    P.bfgsStep norm mb damped st = .ok st' ↔
      ∃ B p hlam, st.B = .ok B ∧ lqeSolve B (P.dfun st.x) (P.dcon st.x) (-P.con st.x) = .ok (p, hlam) ∧
        ∃ alf, alf = P.lineSearch 1 st.x p mb ∧
          st'.x = st.x + alf • p ∧ st'.lam = st.lam + alf • (hlam - st.lam) ∧
          st'.B = (if damped then bfgsDampedUpdate B (alf • p) (P.dlag st'.x st'.lam - P.dlag st.x st'.lam)
            else bfgsBasicUpdate B (alf • p) (P.dlag st'.x st'.lam - P.dlag st.x st'.lam)) ∧
          st'.crit = norm (P.dlag st'.x st'.lam) := by
  unfold NLP.bfgsStep
  dsimp only
  cases hB : st.B with
  | error e => simp [bind, Except.bind]
  | ok B =>
    simp only [bind, Except.bind]
    cases h : lqeSolve B (P.dfun st.x) (P.dcon st.x) (-P.con st.x) with
    | error e => simp [h]
    | ok q =>
      obtain ⟨p, hlam⟩ := q
      simp only [pure, Except.pure, Except.ok.injEq, Prod.mk.injEq]
      constructor
      · rintro rfl
        exact ⟨B, p, hlam, rfl, by rw [h], _, rfl, rfl, rfl, rfl, rfl⟩
      · rintro ⟨B', p', h', rfl, e, alf, rfl, h1, h2, h3, h4⟩
        rw [h] at e
        cases e
        cases st'
        dsimp only at h1 h2 h3 h4
        subst h1 h2 h3 h4
        rfl

theorem bfgsLoop_spec (P : NLP n m K) (norm : (Fin n → K) → K) (tol : K) (mb : ℕ) (damped : Bool) :
    ∀ (fuel : ℕ) (st : BfgsState n m K) (iter : ℕ) (st' : BfgsState n m K) (iter' : ℕ),
    P.bfgsLoop norm tol mb damped fuel st iter = .ok (st', iter') →
    ∃ k ≤ fuel, iter' = iter + k ∧ (k < fuel → st'.crit ≤ tol) ∧ ∃ ss : ℕ → BfgsState n m K, ss 0 = st ∧ ss k = st' ∧
      ∀ j < k, tol < (ss j).crit ∧ P.bfgsStep norm mb damped (ss j) = .ok (ss (j + 1))
  | 0, st, iter, st', iter', h => by
    cases h
    exact ⟨0, le_refl _, rfl, by simp, fun _ => st, rfl, rfl, by simp⟩
  | fuel + 1, st, iter, st', iter', h => by
    unfold NLP.bfgsLoop at h
    split_ifs at h with hc
    · cases hst : P.bfgsStep norm mb damped st with
      | error e => rw [hst] at h; cases h
      | ok s1 =>
        rw [hst] at h
        obtain ⟨k, hk, h1, h2, ss, h3, h4, h5⟩ := bfgsLoop_spec P norm tol mb damped fuel s1 (iter + 1) st' iter' h
        refine ⟨k + 1, by omega, by omega, fun hlt => h2 (by omega), fun j => if j = 0 then st else ss (j - 1), rfl, ?_, ?_⟩
        · simpa using h4
        · intro j hj
          cases j with
          | zero => simp only [if_true, zero_add, one_ne_zero, if_false, Nat.sub_self, h3]; exact ⟨hc, hst⟩
          | succ j =>
            have := h5 j (by omega)
            simpa using this
    · cases h
      exact ⟨0, Nat.zero_le _, rfl, fun _ => not_lt.1 hc, fun _ => st, rfl, rfl, by simp⟩

variable [IsStrictOrderedRing K]

/-- Nonsingularity of the KKT matrix. -/
theorem kkt_det {B : Matrix (Fin n) (Fin n) K} (hB : IsPD B) {A : Matrix (Fin m) (Fin n) K}
    (hA : ∀ l, Aᵀ *ᵥ l = 0 → l = 0) : (fromBlocks B (-Aᵀ) A 0).det ≠ 0 := by
  apply det_ne_zero_of_inj
  intro x hx
  have e : x = Sum.elim (fun i => x (Sum.inl i)) (fun i => x (Sum.inr i)) := by ext (i | i) <;> rfl
  rw [e, kkt_mulVec] at hx
  obtain ⟨u, hu⟩ : ∃ u, u = fun i => x (Sum.inl i) := ⟨_, rfl⟩
  obtain ⟨l, hl⟩ : ∃ l, l = fun i => x (Sum.inr i) := ⟨_, rfl⟩
  rw [← hu, ← hl] at hx
  have h1 : B *ᵥ u - Aᵀ *ᵥ l = 0 := by ext i; simpa using congrFun hx (Sum.inl i)
  have h2 : A *ᵥ u = 0 := by ext i; simpa using congrFun hx (Sum.inr i)
  have h3 : u ⬝ᵥ B *ᵥ u = 0 := by
    rw [sub_eq_zero.1 h1, dot_symm, transpose_transpose, h2, dotProduct_zero]
  have hu0 : u = 0 := by
    by_contra hne
    exact absurd h3 (hB u hne).ne'
  have hl0 : l = 0 := by
    apply hA
    rw [hu0, mulVec_zero, zero_sub, neg_eq_zero] at h1
    exact h1
  rw [e, ← hu, ← hl, hu0, hl0]
  ext (i | i) <;> rfl

/-- The updates keep symmetry and positive definiteness whenever they give a finite result. -/
theorem basic_pd {B B' : Matrix (Fin n) (Fin n) K} (hB : Bᵀ = B) (hP : IsPD B) {s y : Fin n → K}
    (h : bfgsBasicUpdate B s y = .ok B') : B'ᵀ = B' ∧ IsPD B' := by
  by_cases hs : 0 < s ⬝ᵥ y
  · rw [basic_ok hP hs] at h
    cases h
    exact ⟨bfgs_symm hB _ _ _ _, bfgs_pd hB hP hs⟩
  · unfold bfgsBasicUpdate at h
    dsimp only at h
    rw [if_neg hs] at h
    cases h
    exact ⟨hB, hP⟩

theorem damped_pos {B : Matrix (Fin n) (Fin n) K} (hP : IsPD B) {s y y' : Fin n → K} (hs : s ≠ 0)
    (h : (if 2 / 10 * (s ⬝ᵥ B *ᵥ s) ≤ s ⬝ᵥ y then y' = y else s ⬝ᵥ y' = 2 / 10 * (s ⬝ᵥ B *ᵥ s))) :
    2 / 10 * (s ⬝ᵥ B *ᵥ s) ≤ s ⬝ᵥ y' ∧ 0 < s ⬝ᵥ y' := by
  have hb : 0 < s ⬝ᵥ B *ᵥ s := hP s hs
  have h1 : 2 / 10 * (s ⬝ᵥ B *ᵥ s) ≤ s ⬝ᵥ y' := by
    split_ifs at h with h0
    · rw [h]; exact h0
    · rw [h]
  exact ⟨h1, lt_of_lt_of_le (by positivity) h1⟩

theorem damped_zero (B : Matrix (Fin n) (Fin n) K) (y : Fin n → K) : bfgsDampedUpdate B 0 y = .error .notFinite := by
  unfold bfgsDampedUpdate bfgsTheta jnpDiv
  simp [bind, Except.bind]

theorem damped_pd {B B' : Matrix (Fin n) (Fin n) K} (hB : Bᵀ = B) (hP : IsPD B) {s y : Fin n → K}
    (h : bfgsDampedUpdate B s y = .ok B') : B'ᵀ = B' ∧ IsPD B' := by
  have hs : s ≠ 0 := by
    rintro rfl
    rw [damped_zero] at h; cases h
  obtain ⟨y', θ, -, -, -, -, h1, h2⟩ := damped_ok hP hs y
  rw [h2] at h
  cases h
  exact ⟨bfgs_symm hB _ _ _ _, bfgs_pd hB hP (damped_pos hP hs h1).2⟩

theorem bfgsStep_pd {P : NLP n m K} {norm : (Fin n → K) → K} {mb : ℕ} {damped : Bool} {st st' : BfgsState n m K}
    (h : P.bfgsStep norm mb damped st = .ok st') (hst : ∀ B, st.B = .ok B → Bᵀ = B ∧ IsPD B) :
    ∀ B, st'.B = .ok B → Bᵀ = B ∧ IsPD B := by
  obtain ⟨B, p, hlam, hB, -, alf, -, -, -, h3, -⟩ := bfgsStep_ok.1 h
  intro B' hB'
  rw [h3] at hB'
  obtain ⟨hs, hp⟩ := hst B hB
  cases damped with
  | false => exact basic_pd hs hp hB'
  | true => exact damped_pd hs hp hB'

theorem one_pd : (1 : Matrix (Fin n) (Fin n) K)ᵀ = 1 ∧ IsPD (1 : Matrix (Fin n) (Fin n) K) := by
  refine ⟨transpose_one, fun x hx => ?_⟩
  rw [one_mulVec]
  exact lt_of_le_of_ne (Finset.sum_nonneg fun i _ => mul_self_nonneg (x i)) (fun h => hx (dotProduct_self_eq_zero.1 h.symm))

theorem bfgsLoop_total (P : NLP n m K) (norm : (Fin n → K) → K) (h0 : norm 0 = 0) (tol : K) (ht : 0 ≤ tol) (mb : ℕ)
    (damped : Bool) (hA : ∀ x l, (P.dcon x)ᵀ *ᵥ l = 0 → l = 0) : ∀ (fuel : ℕ) (st : BfgsState n m K) (iter : ℕ),
    ((∃ B, st.B = .ok B ∧ Bᵀ = B ∧ IsPD B) ∨ st.crit ≤ tol) →
    ∃ r, P.bfgsLoop norm tol mb damped fuel st iter = .ok r
  | 0, st, iter, _ => ⟨_, rfl⟩
  | fuel + 1, st, iter, hst => by
    unfold NLP.bfgsLoop
    split_ifs with hc
    · rcases hst with ⟨B, hB, hs, hp⟩ | hle
      · obtain ⟨⟨p, hlam⟩, hq⟩ := lqeSolve_total (kkt_det hp (hA st.x)) (P.dfun st.x) (-P.con st.x)
        have hstep : ∃ st', P.bfgsStep norm mb damped st = .ok st' :=
          by
          have hx : ∃ (x : Fin n → K) (lam : Fin m → K), x = st.x + P.lineSearch 1 st.x p mb • p ∧
            lam = st.lam + P.lineSearch 1 st.x p mb • (hlam - st.lam) := ⟨_, _, rfl, rfl⟩
          obtain ⟨x, lam, hx, hl⟩ := hx
          exact ⟨⟨x, (if damped then bfgsDampedUpdate B (P.lineSearch 1 st.x p mb • p) (P.dlag x lam - P.dlag st.x lam)
            else bfgsBasicUpdate B (P.lineSearch 1 st.x p mb • p) (P.dlag x lam - P.dlag st.x lam)), lam,
            norm (P.dlag x lam)⟩, bfgsStep_ok.2 ⟨B, p, hlam, hB, hq, _, rfl, hx, hl, rfl, rfl⟩⟩
        obtain ⟨st', hst'⟩ := hstep
        rw [hst']
        apply bfgsLoop_total P norm h0 tol ht mb damped hA fuel st' (iter + 1)
        obtain ⟨B1, p1, hlam1, hB1, hq1, alf, ha, h1, h2, h3, h4⟩ := bfgsStep_ok.1 hst'
        rw [hB] at hB1; cases hB1
        rw [hq] at hq1; cases hq1
        by_cases hp0 : p = 0
        · right
          subst hp0
          rw [lineSearch_zero] at ha
          obtain ⟨-, -, h5⟩ := lqeSolve_ok.1 hq
          dsimp only at h5
          rw [mulVec_zero, zero_add] at h5
          have hx : st'.x = st.x := by rw [h1]; simp
          have hl : st'.lam = hlam := by rw [h2, ha]; simp
          rw [h4, hx, hl]
          unfold NLP.dlag
          rw [h5, sub_self, h0]
          exact ht
        · left
          have hs0 : alf • p ≠ 0 := by
            rw [ne_eq, smul_eq_zero, not_or]
            refine ⟨?_, hp0⟩
            rw [ha]
            rcases lineSearch_spec P 1 st.x p mb with ⟨i, -, h6, -⟩ | ⟨h6, -⟩
            · rw [h6]; positivity
            · rw [h6]; exact one_ne_zero
          have : ∃ B', st'.B = .ok B' := by
            rw [h3]
            cases damped with
            | true => obtain ⟨_, _, -, -, -, -, -, e⟩ := damped_ok hp hs0 _; exact ⟨_, e⟩
            | false =>
              simp only [Bool.false_eq_true, if_false]
              by_cases hd : 0 < (alf • p) ⬝ᵥ (P.dlag st'.x st'.lam - P.dlag st.x st'.lam)
              · exact ⟨_, basic_ok hp hd⟩
              · refine ⟨B, ?_⟩
                unfold bfgsBasicUpdate
                dsimp only
                rw [if_neg hd]
          obtain ⟨B', hB'⟩ := this
          exact ⟨B', hB', bfgsStep_pd hst' (fun B1 hB1 => by rw [hB] at hB1; cases hB1; exact ⟨hs, hp⟩) B' hB'⟩
      · exact absurd hc (not_lt.2 hle)
    · exact ⟨_, rfl⟩

end BFGS

end Verif
