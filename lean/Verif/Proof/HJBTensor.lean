import Verif.Props.TensorHJB
import Verif.Proof.FSCTensor
import Verif.Proof.LQTTensor
import Verif.Proof.HJBPass

/-!
The tensor code of the combination functions and grid passes of `hjb_grid_1d_tf.py` computes the functional model.
-/

namespace Verif

variable {K L : Type}

/-! ### Combination -/

section Combine
variable [Field K] [LinearOrder K] {n : ℕ} [NeZero n]

omit [LinearOrder K] [NeZero n] in
/-- The tensor of sums: four axes, entry `[b, i, j, k]`. -/
theorem vsum_is {a b : Tens (WithBot K)} {la lb : List (Fin n → Fin n → WithBot K)} (ha : a.IsMs la) (hb : b.IsMs lb)
    (hl : la.length = lb.length) :
    ∃ v, tensHjbVsum a b = .ok ⟨[la.length, n, n, n], v⟩ ∧ ∀ (k : ℕ) (h1 : k < la.length) (h2 : k < lb.length) (x j y : Fin n),
      v [k, x.val, j.val, y.val] = vsum la[k] lb[k] x y j := by
  obtain ⟨sa, va⟩ := a
  obtain ⟨sb, vb⟩ := b
  obtain ⟨h1, h2⟩ := ha
  obtain ⟨h3, h4⟩ := hb
  dsimp only at h1 h2 h3 h4
  subst h1 h3
  have e1 : Tens.expandDims ⟨[la.length, n, n], va⟩ (-1) = .ok ⟨[la.length, n, n, 1], fun i => va (i.eraseIdx 3)⟩ := rfl
  have e2 : Tens.expandDims ⟨[lb.length, n, n], vb⟩ 1 = .ok ⟨[lb.length, 1, n, n], fun i => vb (i.eraseIdx 1)⟩ := rfl
  refine ⟨_, bstep e1 (bstep e2 (Tens.bin_eq (by simp [padShape, hl]) (by simp [padShape, hl, one_or]))), ?_⟩
  intro k hk hk' x j y
  rw [vsum, ← h2 k hk x j, ← h4 k hk' j y]
  simp [bcastIdx, padShape, bc_lt, hk', hk]

theorem hjbCombineV_rep {a b : Tens (WithBot K)} {la lb : List (Fin n → Fin n → WithBot K)} (ha : a.IsMs la) (hb : b.IsMs lb)
    (hl : la.length = lb.length) : ∃ c, tensHjbCombineV a b = .ok c ∧ c.IsMs (List.zipWith hjbCombineV la lb) := by
  obtain ⟨v, e, hv⟩ := vsum_is ha hb hl
  refine ⟨_, bstep e (Tens.reduceMin_eq (n := n) (a := 2) rfl rfl), by simp [hl], ?_⟩
  intro k hk x y
  have hk1 : k < la.length := by simp at hk; omega
  have hk2 : k < lb.length := by omega
  rw [List.getElem_zipWith, hjbCombineV]
  refine congrArg min1 (funext fun j => ?_)
  exact hv k hk1 hk2 x j y

/-- Exchanging the last two of four axes. -/
theorem permute_swap {α : Type} (p q r s : ℕ) (v : List ℕ → α) :
    ∃ w, Tens.permute ⟨[p, q, r, s], v⟩ [0, 1, 3, 2] = .ok ⟨[p, q, s, r], w⟩ ∧ ∀ a b c d, w [a, b, c, d] = v [a, b, d, c] :=
  ⟨_, if_pos (show [0, 1, 3, 2].Perm (List.range 4) by decide), fun _ _ _ _ => rfl⟩

/-- `gather_nd` with three batch axes reads one entry along the last axis. -/
theorem gather3 {α : Type} {p q r s : ℕ} (v : List ℕ → α) (ix : List ℕ → ℕ)
    (h : ∀ a b c, a < p → b < q → c < r → ix [a, b, c, 0] < s) :
    ∃ w, Tens.gatherNd ⟨[p, q, r, s], v⟩ ⟨[p, q, r, 1], ix⟩ 3 = .ok ⟨[p, q, r], w⟩ ∧ ∀ a b c, w [a, b, c] = v [a, b, c, ix [a, b, c, 0]] := by
  refine ⟨_, gatherNd_eq (outer := [p, q, r]) (k := 1) rfl (by simp) (by simp) (by simp) ?_, fun a b c => rfl⟩
  intro o ho
  obtain ⟨a, b, c, rfl, ha, hb, hc⟩ := mem_allIdx3.1 ho
  exact mem_allIdx4.2 ⟨a, b, c, _, rfl, ha, hb, hc, h a b c ha hb hc⟩

/-- An index out of range makes `gather_nd` fail. -/
theorem gather3_fail {α : Type} {p q r s : ℕ} (v : List ℕ → α) (ix : List ℕ → ℕ) {a b c : ℕ} (ha : a < p) (hb : b < q) (hc : c < r)
    (h : ¬ ix [a, b, c, 0] < s) : Tens.gatherNd ⟨[p, q, r, s], v⟩ ⟨[p, q, r, 1], ix⟩ 3 = .error .indexError := by
  refine (if_pos ⟨by simp, by simp, by simp⟩).trans (if_neg ?_)
  intro hall
  have := List.all_eq_true.1 hall [a, b, c] (mem_allIdx3.2 ⟨a, b, c, rfl, ha, hb, hc⟩)
  obtain ⟨a', b', c', d', e, -, -, -, hd⟩ := mem_allIdx4.1 (of_decide_eq_true this)
  have e' : [a, b, c, ix [a, b, c, 0]] = [a', b', c', d'] := e
  simp only [List.cons.injEq, and_true] at e'
  omega

theorem natIdx_ok (p q r : ℕ) (v : List ℕ → ℤ) (h : ∀ a b c, a < p → b < q → c < r → 0 ≤ v [a, b, c, 0]) :
    Tens.natIdx ⟨[p, q, r, 1], v⟩ = .ok ⟨[p, q, r, 1], fun i => (v i).toNat⟩ := by
  refine if_pos (List.all_eq_true.2 fun i hi => ?_)
  obtain ⟨a, b, c, d, rfl, ha, hb, hc, hd⟩ := mem_allIdx4.1 hi
  obtain rfl : d = 0 := by omega
  exact decide_eq_true (h a b c ha hb hc)

omit [LinearOrder K] in
theorem hjbCombineV2_rep (am : AArgmin (WithBot K)) {a b : Tens (WithBot K)} {la lb : List (Fin n → Fin n → WithBot K)} (ha : a.IsMs la)
    (hb : b.IsMs lb) (hl : la.length = lb.length) :
    ∃ c, tensHjbCombineV2 am a b = .ok c ∧ c.IsMs (List.zipWith (hjbCombineV2TF (am n)) la lb) := by
  obtain ⟨v, e, hv⟩ := vsum_is ha hb hl
  obtain ⟨w, e3, hw⟩ := permute_swap la.length n n n v
  have e1 := Tens.argmin_eq am (t := ⟨[la.length, n, n, n], v⟩) (axis := 2) (a := 2) (n := n) rfl rfl
  obtain ⟨ix, e2, hix⟩ := permute_swap la.length n 1 n
    (fun i => (fun i : List ℕ => (am n fun k : Fin n => v (i.insertIdx 2 k.val)).val) (i.eraseIdx 2))
  have hix' : ∀ a b c, ix [a, b, c, 0] = (am n fun j : Fin n => v [a, b, j.val, c]).val := fun a b c => hix a b c 0
  obtain ⟨g, e4, hg⟩ := gather3 (p := la.length) (q := n) (r := n) (s := n) w ix fun a b c _ _ _ => by rw [hix']; exact Fin.isLt _
  refine ⟨_, bstep e (bstep e1 (bstep rfl (bstep e2 (bstep e3 e4)))), by simp [hl], ?_⟩
  intro k hk x y
  have hk1 : k < la.length := by simp at hk; omega
  have hk2 : k < lb.length := by omega
  rw [List.getElem_zipWith, hjbCombineV2TF]
  have hvf : (fun j : Fin n => v [k, x.val, j.val, y.val]) = vsum la[k] lb[k] x y := funext fun j => hv k hk1 hk2 x j y
  refine (hg k x y).trans ?_
  rw [hix', hw, hvf]
  exact hv k hk1 hk2 x _ y

omit [Field K] [LinearOrder K] [NeZero n] in
theorem takeAlong_of {v : Fin n → WithBot K} {j : ℤ} {k : ℕ} (h : j.toNat = k) (h0 : 0 ≤ j) (hk : k < n) : takeAlong v j = v ⟨k, hk⟩ := by
  subst h
  have h1 : ¬ j < 0 := by omega
  have h2 : 0 ≤ j ∧ j < n := ⟨h0, by omega⟩
  simp only [takeAlong, h1, if_false, h2, and_self, dif_pos]

theorem interp_vertex [IsStrictOrderedRing K] (fm fi fp : WithBot K) :
    nanSub fi (nanDiv (nanDiv (WithBot.map (· ^ 2) (nanSub fp fm)) (nanSub (fp + fm) (WithBot.map (2 * ·) fi) + ((0 : K) : WithBot K)))
      ((8 : K) : WithBot K)) = interpVertex fm fi fp := by
  cases fm <;> cases fi <;> cases fp <;> try rfl
  rename_i fm fi fp
  have h8 : (8 : K) ≠ 0 := by norm_num
  have e : ∀ A D : K, nanDiv (A : WithBot K) (D : WithBot K) = if D = 0 then ⊥ else ((A / D : K) : WithBot K) := fun _ _ => rfl
  by_cases hd : fp + fm - 2 * fi + 0 = 0
  · refine Eq.trans (b := nanSub (fi : WithBot K) (nanDiv (nanDiv (((fp - fm) ^ 2 : K) : WithBot K) ((fp + fm - 2 * fi + 0 : K) : WithBot K))
      ((8 : K) : WithBot K))) rfl ?_
    rw [e, if_pos hd]
    exact (if_pos hd).symm
  · refine Eq.trans (b := nanSub (fi : WithBot K) (nanDiv (nanDiv (((fp - fm) ^ 2 : K) : WithBot K) ((fp + fm - 2 * fi + 0 : K) : WithBot K))
      ((8 : K) : WithBot K))) rfl ?_
    rw [e, if_neg hd, e, if_neg h8]
    exact (if_neg hd).symm

theorem combineInterp_rep [IsStrictOrderedRing K] (am : AArgmin (WithBot K)) (hn : 2 ≤ n) {a b : Tens (WithBot K)}
    {la lb : List (Fin n → Fin n → WithBot K)} (ha : a.IsMs la) (hb : b.IsMs lb) (hl : la.length = lb.length) :
    ∃ c, tensHjbCombineInterp am a b = .ok c ∧ c.IsMs (List.zipWith (combineVInterpTF (am n)) la lb) := by
  obtain ⟨v, e, hv⟩ := vsum_is ha hb hl
  obtain ⟨w, e3, hw⟩ := permute_swap la.length n n n v
  have e1 := Tens.argmin_eq am (t := ⟨[la.length, n, n, n], v⟩) (axis := 2) (a := 2) (n := n) rfl rfl
  obtain ⟨ix, e2, hix⟩ := permute_swap la.length n 1 n
    (fun i => Int.ofNat ((fun i : List ℕ => (am n fun k : Fin n => v (i.insertIdx 2 k.val)).val) (i.eraseIdx 2)))
  have hix' : ∀ a b c, ix [a, b, c, 0] = ((am n fun j : Fin n => v [a, b, j.val, c]).val : ℤ) := fun a b c => hix a b c 0
  have hd : a.dim 1 = .ok n := by
    obtain ⟨sa, va⟩ := a
    obtain ⟨h1, -⟩ := ha
    dsimp only at h1
    subst h1
    rfl
  have hr : ∀ a b c, 0 ≤ ix [a, b, c, 0] ∧ ix [a, b, c, 0] < n := fun a b c => by
    rw [hix']
    have := (am n fun j : Fin n => v [a, b, j.val, c]).isLt
    omega
  have hm : ∀ j : ℤ, 0 ≤ j → j < n → 0 ≤ |j - 1| ∧ |j - 1| < n := fun j h1 h2 => by
    refine ⟨abs_nonneg _, abs_lt.2 ⟨by omega, by omega⟩⟩
  have hp : ∀ j : ℤ, 0 ≤ j → j < n → 0 ≤ ((n : ℤ) - 1) - |((n : ℤ) - 1) - j - 1| ∧ ((n : ℤ) - 1) - |((n : ℤ) - 1) - j - 1| < n := fun j h1 h2 => by
    have h3 : |((n : ℤ) - 1) - j - 1| ≤ (n : ℤ) - 1 := abs_le.2 ⟨by omega, by omega⟩
    have h4 := abs_nonneg (((n : ℤ) - 1) - j - 1)
    omega
  have n1 := natIdx_ok la.length n n ix fun a b c _ _ _ => (hr a b c).1
  have n2 := natIdx_ok la.length n n (fun i => |ix i - 1|) fun a b c _ _ _ => (hm _ (hr a b c).1 (hr a b c).2).1
  have n3 := natIdx_ok la.length n n (fun i => ((n : ℤ) - 1) - |((n : ℤ) - 1) - ix i - 1|) fun a b c _ _ _ => (hp _ (hr a b c).1 (hr a b c).2).1
  have toN : ∀ {j : ℤ}, 0 ≤ j → j < n → j.toNat < n := fun h1 h2 => by omega
  obtain ⟨g1, f1, hg1⟩ := gather3 (p := la.length) (q := n) (r := n) (s := n) w (fun i => (ix i).toNat)
    fun a b c _ _ _ => toN (hr a b c).1 (hr a b c).2
  obtain ⟨g2, f2, hg2⟩ := gather3 (p := la.length) (q := n) (r := n) (s := n) w (fun i => (|ix i - 1|).toNat)
    fun a b c _ _ _ => toN (hm _ (hr a b c).1 (hr a b c).2).1 (hm _ (hr a b c).1 (hr a b c).2).2
  obtain ⟨g3, f3, hg3⟩ := gather3 (p := la.length) (q := n) (r := n) (s := n) w
    (fun i => (((n : ℤ) - 1) - |((n : ℤ) - 1) - ix i - 1|).toNat)
    fun a b c _ _ _ => toN (hp _ (hr a b c).1 (hr a b c).2).1 (hp _ (hr a b c).1 (hr a b c).2).2
  obtain ⟨d1, q1, hd1⟩ := bin_same3 (f := nanSub) (p := la.length) (n := n) (m := n) g3 g2
  obtain ⟨d2, q2, hd2⟩ := bin_same3 (f := fun x y : WithBot K => x + y) (p := la.length) (n := n) (m := n) g3 g2
  obtain ⟨d3, q3, hd3⟩ := bin_same3 (f := nanSub) (p := la.length) (n := n) (m := n) d2 (fun i => WithBot.map (2 * ·) (g1 i))
  obtain ⟨d4, q4, hd4⟩ := bin_same3 (f := nanDiv) (p := la.length) (n := n) (m := n) (fun i => WithBot.map (· ^ 2) (d1 i))
    (fun i => d3 i + ((0 : K) : WithBot K))
  obtain ⟨d5, q5, hd5⟩ := bin_same3 (f := nanSub) (p := la.length) (n := n) (m := n) g1 (fun i => nanDiv (d4 i) ((8 : K) : WithBot K))
  refine ⟨_, bstep e (bstep e1 (bstep rfl (bstep e2 (bstep hd (bstep e3 (bstep n1 (bstep f1 (bstep n2 (bstep f2 (bstep n3 (bstep f3
    (bstep q1 (bstep q2 (bstep q3 (bstep q4 q5))))))))))))))), by simp [hl], ?_⟩
  intro k hk x y
  have hk1 : k < la.length := by simp at hk; omega
  have hk2 : k < lb.length := by omega
  rw [List.getElem_zipWith]
  have hvf : (fun j : Fin n => v [k, x.val, j.val, y.val]) = vsum la[k] lb[k] x y := funext fun j => hv k hk1 hk2 x j y
  refine (hd5 k x y hk1 x.isLt y.isLt).trans ?_
  rw [hd4 k x y hk1 x.isLt y.isLt, hd3 k x y hk1 x.isLt y.isLt, hd2 k x y hk1 x.isLt y.isLt, hd1 k x y hk1 x.isLt y.isLt, interp_vertex, hg1, hg2,
    hg3, hw, hw, hw]
  have hj : ix [k, x.val, y.val, 0] = ((am n (vsum la[k] lb[k] x y)).val : ℤ) := by rw [hix', hvf]
  have r0 := hr k x y
  have rm := hm _ r0.1 r0.2
  have rp := hp _ r0.1 r0.2
  rw [hj] at r0 rm rp ⊢
  unfold combineVInterpTF
  dsimp only
  rw [takeAlong_of rfl r0.1 (toN r0.1 r0.2), takeAlong_of (j := idxM1 _) rfl rm.1 (toN rm.1 rm.2),
    takeAlong_of (j := idxP1 n _) rfl rp.1 (toN rp.1 rp.2)]
  exact congr (congr (congrArg interpVertex (hv k hk1 hk2 x ⟨_, toN rm.1 rm.2⟩ y)) (hv k hk1 hk2 x ⟨_, toN r0.1 r0.2⟩ y))
    (hv k hk1 hk2 x ⟨_, toN rp.1 rp.2⟩ y)

omit [LinearOrder K] [NeZero n] in
/-- On a grid with a single point the neighbour of the smallest entry does not exist. -/
theorem combineInterp_single [LinearOrder K] (am : AArgmin (WithBot K)) {a b : Tens (WithBot K)} {la lb : List (Fin 1 → Fin 1 → WithBot K)}
    (ha : a.IsMs la) (hb : b.IsMs lb) (hl : la.length = lb.length) (hne : la ≠ []) : tensHjbCombineInterp am a b = .error .indexError := by
  obtain ⟨v, e, -⟩ := vsum_is ha hb hl
  obtain ⟨w, e3, -⟩ := permute_swap la.length 1 1 1 v
  have e1 := Tens.argmin_eq am (t := ⟨[la.length, 1, 1, 1], v⟩) (axis := 2) (a := 2) (n := 1) rfl rfl
  obtain ⟨ix, e2, hix⟩ := permute_swap la.length 1 1 1
    (fun i => Int.ofNat ((fun i : List ℕ => (am 1 fun k : Fin 1 => v (i.insertIdx 2 k.val)).val) (i.eraseIdx 2)))
  have hix' : ∀ a b c, ix [a, b, c, 0] = 0 := fun a b c => by
    refine (hix a b c 0).trans ?_
    exact congrArg Int.ofNat ((fun x : Fin 1 => by omega : ∀ x : Fin 1, x.val = 0) _)
  have hd : a.dim 1 = .ok 1 := by
    obtain ⟨sa, va⟩ := a
    obtain ⟨h1, -⟩ := ha
    dsimp only at h1
    subst h1
    rfl
  have n1 := natIdx_ok la.length 1 1 ix fun a b c _ _ _ => (hix' a b c).ge
  have n2 := natIdx_ok la.length 1 1 (fun i => |ix i - 1|) fun a b c _ _ _ => abs_nonneg _
  obtain ⟨g1, f1, -⟩ := gather3 (p := la.length) (q := 1) (r := 1) (s := 1) w (fun i => (ix i).toNat)
    fun a b c _ _ _ => by rw [hix']; decide
  have f2 := gather3_fail (p := la.length) (q := 1) (r := 1) (s := 1) w (fun i => (|ix i - 1|).toNat) (a := 0) (b := 0) (c := 0)
    (List.length_pos_iff.2 hne) (by decide) (by decide) (by rw [hix']; decide)
  refine bstep e (bstep e1 (bstep rfl (bstep e2 (bstep hd (bstep e3 (bstep n1 (bstep f1 (bstep n2 ?_))))))))
  exact congrArg (· >>= _) f2

end Combine

/-- An operation with broadcasting works entry by entry on tensors of equal shape. -/
theorem bin_pointwise {f : K → K → K} (a b : Tens K) (h : a.shape = b.shape) :
    ∃ r, a.bin f b = .ok r ∧ r.shape = a.shape ∧ ∀ i ∈ allIdx a.shape, r.val i = f (a.val i) (b.val i) := by
  obtain ⟨s, va⟩ := a
  obtain ⟨s', vb⟩ := b
  dsimp only at h
  subst h
  have hpad : padShape (max s.length s.length) s = s := by simp [padShape]
  have hc : (List.zipWith (fun m n => decide (m = n ∨ m = 1 ∨ n = 1)) s s).all id = true := by
    induction s with
    | nil => rfl
    | cons a s ih => simp_all [padShape]
  have hz : List.zipWith (fun m n => if m = 1 then n else m) s s = s := by
    clear hc hpad
    induction s with
    | nil => rfl
    | cons a s ih =>
      rw [List.zipWith_cons_cons, ih]
      exact congrArg (· :: s) (by split <;> rfl)
  have hb : ∀ (s i : List ℕ), i ∈ allIdx s → i.length = s.length ∧ List.zipWith (fun k n => if n = 1 then 0 else k) i s = i := by
    intro s
    induction s with
    | nil => intro i hi; simp only [allIdx, List.mem_singleton] at hi; subst hi; exact ⟨rfl, rfl⟩
    | cons n s ih =>
      intro i hi
      simp only [allIdx, List.mem_flatMap, List.mem_range, List.mem_map] at hi
      obtain ⟨k, hk, j, hj, rfl⟩ := hi
      obtain ⟨h1, h2⟩ := ih j hj
      refine ⟨by simp [h1], ?_⟩
      rw [List.zipWith_cons_cons, h2, bc_lt hk]
  refine ⟨_, Tens.bin_eq (s := s) (by dsimp only; rw [hpad]; exact hc) (by dsimp only; rw [hpad]; exact hz), rfl, fun i hi => ?_⟩
  obtain ⟨h1, h2⟩ := hb s i hi
  have e : bcastIdx s i = i := by
    unfold bcastIdx
    rw [h1]
    simp [padShape, h2]
  show f (va (bcastIdx s i)) (vb (bcastIdx s i)) = _
  rw [e]

end Verif
