import Verif.Proof.TensorMat
import Verif.Proof.CondensingTF

/-! Lemmas for `Verif.Props.CondensingTensor`. -/

namespace Verif

open Matrix

variable {K β ι κ μ : Type} {a b c N : ℕ}

/-- A batch of `N` matrices each. -/
def Tens.IsM4 (t : Tens K) (bs : List β) (f : β → Fin N → Matrix (Fin a) (Fin b) K) : Prop :=
  t.shape = [bs.length, N, a, b] ∧ ∀ (k : ℕ) (h : k < bs.length) (i : Fin N) (x : Fin a) (y : Fin b),
    t.val [k, i.val, x.val, y.val] = f bs[k] i x y

/-- A batch of `N` vectors each. -/
def Tens.IsV3 (t : Tens K) (bs : List β) (f : β → Fin N → Fin a → K) : Prop :=
  t.shape = [bs.length, N, a] ∧ ∀ (k : ℕ) (h : k < bs.length) (i : Fin N) (x : Fin a), t.val [k, i.val, x.val] = f bs[k] i x

theorem block_idx {k i Tc : ℕ} (hk : k < Tc) (hi : i < N) : N * k + i < N * Tc := by
  calc N * k + i < N * k + N := by omega
    _ = N * (k + 1) := by ring
    _ ≤ N * Tc := Nat.mul_le_mul_left _ hk

theorem tensBlocks_rep [Field K] {t : Tens K} {ps : List β} {f : β → Matrix (Fin a) (Fin b) K} {Tc : ℕ} {B : ℕ → Fin N → β}
    (h : t.IsMt (Equiv.refl _) (Equiv.refl _) ps f) (hl : ps.length = N * Tc)
    (hB : ∀ k < Tc, ∀ i : Fin N, ps[N * k + i]? = some (B k i)) :
    ∃ r, tensBlocks Tc N t = .ok r ∧ r.IsM4 (List.range Tc) fun k i => f (B k i) := by
  have hs1 := h.size1
  have hs2 := h.size2
  obtain ⟨s, v⟩ := t
  obtain ⟨h1, h2⟩ := h
  dsimp only at h1 h2
  subst h1
  have hp : [1, ps.length, a, b].prod = [Tc, N, a, b].prod := by simp [hl]; ring
  refine ⟨⟨[Tc, N, a, b], fun i => v ((unravel [1, ps.length, a, b] (ravel [Tc, N, a, b] i)).eraseIdx 0)⟩, ?_, by simp, ?_⟩
  · unfold tensBlocks
    rw [hs1, hs2]
    show Tens.reshape ⟨[1, ps.length, a, b], _⟩ _ = _
    exact if_pos hp
  · intro k hk i x y
    simp only [List.length_range] at hk
    have hidx := block_idx hk i.2
    have hr : ravel [Tc, N, a, b] [k, i.val, x.val, y.val] = ravel [1, ps.length, a, b] [0, N * k + i.val, x.val, y.val] := by
      simp [ravel]; ring
    show v _ = _
    rw [hr, unravel_ravel (by simp [hidx, hl, x.2, y.2])]
    have hbk : ps[N * k + i.val]'(by omega) = B k i := by
      have := hB k hk i
      rw [List.getElem?_eq_getElem (by omega)] at this
      exact Option.some.inj this
    have := h2 (N * k + i.val) (by omega) x y
    rw [hbk] at this
    simpa using this

theorem tensVBlocks_rep {t : Tens K} {ps : List β} {f : β → Fin a → K} {Tc : ℕ} {B : ℕ → Fin N → β}
    (h : t.IsVt (Equiv.refl _) ps f) (hl : ps.length = N * Tc)
    (hB : ∀ k < Tc, ∀ i : Fin N, ps[N * k + i]? = some (B k i)) :
    ∃ q r, t.expandDims 0 = .ok q ∧ q.reshape [Tc, N, a] = .ok r ∧ r.IsV3 (List.range Tc) fun k i => f (B k i) := by
  obtain ⟨s, v⟩ := t
  obtain ⟨h1, h2⟩ := h
  dsimp only at h1 h2
  subst h1
  have hp : [1, ps.length, a].prod = [Tc, N, a].prod := by simp [hl]; ring
  refine ⟨_, ⟨[Tc, N, a], fun i => v ((unravel [1, ps.length, a] (ravel [Tc, N, a] i)).eraseIdx 0)⟩, rfl, if_pos hp, by simp, ?_⟩
  · intro k hk i x
    simp only [List.length_range] at hk
    have hidx := block_idx hk i.2
    have hr : ravel [Tc, N, a] [k, i.val, x.val] = ravel [1, ps.length, a] [0, N * k + i.val, x.val] := by
      simp [ravel]; ring
    show v _ = _
    rw [hr, unravel_ravel (by simp [hidx, hl, x.2])]
    have hbk : ps[N * k + i.val]'(by omega) = B k i := by
      have := hB k hk i
      rw [List.getElem?_eq_getElem (by omega)] at this
      exact Option.some.inj this
    have := h2 (N * k + i.val) (by omega) x
    rw [hbk] at this
    simpa using this

/-- `rs` as rows of `N` vectors. -/
theorem tensRows_rep {t : Tens K} {ps : List β} {f : β → Fin a → K} {Tc : ℕ} {B : ℕ → Fin N → β}
    (h : t.IsVt (Equiv.refl _) ps f) (hl : ps.length = N * Tc)
    (hB : ∀ k < Tc, ∀ i : Fin N, ps[N * k + i]? = some (B k i)) :
    ∃ r, t.reshape [Tc, N * a] = .ok r ∧ r.IsVt finProdFinEquiv (List.range Tc) fun k ia => f (B k ia.1) ia.2 := by
  obtain ⟨s, v⟩ := t
  obtain ⟨h1, h2⟩ := h
  dsimp only at h1 h2
  subst h1
  have hp : [ps.length, a].prod = [Tc, N * a].prod := by simp [hl]; ring
  refine ⟨_, if_pos hp, by simp, ?_⟩
  · rintro k hk ⟨i, x⟩
    simp only [List.length_range] at hk
    have hidx := block_idx hk i.2
    have hr : ravel [Tc, N * a] [k, (finProdFinEquiv (i, x)).val] = ravel [ps.length, a] [N * k + i.val, x.val] := by
      simp [ravel]; ring
    show v _ = _
    rw [hr, unravel_ravel (by simp [hidx, hl, x.2])]
    have hbk : ps[N * k + i.val]'(by omega) = B k i := by
      have := hB k hk i
      rw [List.getElem?_eq_getElem (by omega)] at this
      exact Option.some.inj this
    have := h2 (N * k + i.val) (by omega) x
    rw [hbk] at this
    simpa using this

theorem Tens.IsM4.select {t : Tens K} {bs : List β} {f : β → Fin N → Matrix (Fin a) (Fin b) K} (h : t.IsM4 bs f) {i : ℕ} (hi : i < N) :
    ∃ r, t.select 1 i = .ok r ∧ r.IsMt (Equiv.refl _) (Equiv.refl _) bs fun x => f x ⟨i, hi⟩ := by
  obtain ⟨s, v⟩ := t
  obtain ⟨h1, h2⟩ := h
  dsimp only at h1 h2
  subst h1
  exact ⟨_, if_pos hi, rfl, fun k hk x y => h2 k hk ⟨i, hi⟩ x y⟩

theorem Tens.IsV3.select {t : Tens K} {bs : List β} {f : β → Fin N → Fin a → K} (h : t.IsV3 bs f) {i : ℕ} (hi : i < N) :
    ∃ r, t.select 1 i = .ok r ∧ r.IsVt (Equiv.refl _) bs fun x => f x ⟨i, hi⟩ := by
  obtain ⟨s, v⟩ := t
  obtain ⟨h1, h2⟩ := h
  dsimp only at h1 h2
  subst h1
  exact ⟨_, if_pos hi, rfl, fun k hk x => h2 k hk ⟨i, hi⟩ x⟩

theorem Tens.IsM4.sizes {t : Tens K} {bs : List β} {f : β → Fin N → Matrix (Fin a) (Fin b) K} (h : t.IsM4 bs f) :
    t.size 0 = .ok bs.length ∧ t.size 1 = .ok N ∧ t.size 2 = .ok a ∧ t.size 3 = .ok b ∧ t.size (-1) = .ok b := by
  simp only [Tens.size, h.1]
  exact ⟨rfl, rfl, rfl, rfl, rfl⟩

theorem Tens.IsV3.sizes {t : Tens K} {bs : List β} {f : β → Fin N → Fin a → K} (h : t.IsV3 bs f) : t.size 2 = .ok a := by
  simp only [Tens.size, h.1]
  rfl

theorem mapM_ok_map {α γ : Type} (g : α → Py γ) (g' : α → γ) : ∀ l : List α, (∀ x ∈ l, g x = .ok (g' x)) → l.mapM g = .ok (l.map g')
  | [], _ => rfl
  | x :: l, h => by
    rw [List.mapM_cons, h x (by simp), mapM_ok_map g g' l fun y hy => h y (by simp [hy])]
    rfl

theorem tensBlkdiag_rep [Field K] {t : Tens K} {bs : List β} {f : β → Fin N → Matrix (Fin a) (Fin b) K} (hN : 0 < N) (h : t.IsM4 bs f) :
    ∃ r, tensBlkdiag t = .ok r ∧ r.IsMt finProdFinEquiv finProdFinEquiv bs fun x => blkDiag (f x) := by
  obtain ⟨s, v⟩ := t
  obtain ⟨h1, h2⟩ := h
  dsimp only at h1 h2
  subst h1
  have e : tensBlkdiag ⟨[bs.length, N, a, b], v⟩ = (do
      let r ← ((List.range bs.length).map fun k => (⟨[N, a, b], fun i => v (k :: i)⟩ : Tens K)).mapM tensBlkdiagItem
      Tens.stack [N * a, N * b] (fun _ => 0) r) := rfl
  rw [e, mapM_ok_map _ (fun t => ⟨[N * a, N * b], fun i =>
      if i.getD 0 0 / a = i.getD 1 0 / b then t.val [i.getD 0 0 / a, i.getD 0 0 % a, i.getD 1 0 % b] else 0⟩)]
  · rw [tens_bind]
    refine ⟨_, if_pos (by simp), by simp, ?_⟩
    rintro k hk ⟨i, x⟩ ⟨j, y⟩
    have ha : 0 < a := x.pos
    have hb : 0 < b := y.pos
    have q1 : (x.val + a * i.val) / a = i.val := by rw [Nat.add_mul_div_left _ _ ha, Nat.div_eq_of_lt x.2, Nat.zero_add]
    have q2 : (y.val + b * j.val) / b = j.val := by rw [Nat.add_mul_div_left _ _ hb, Nat.div_eq_of_lt y.2, Nat.zero_add]
    have q3 : (x.val + a * i.val) % a = x.val := by rw [Nat.add_mul_mod_self_left, Nat.mod_eq_of_lt x.2]
    have q4 : (y.val + b * j.val) % b = y.val := by rw [Nat.add_mul_mod_self_left, Nat.mod_eq_of_lt y.2]
    simp [hk, blkDiag, q1, q2, q3, q4, h2 k hk, Fin.val_inj]
  · simp only [List.mem_map, List.mem_range]
    rintro _ ⟨k, -, rfl⟩
    exact if_neg (by omega)

/-- `tf.concat(l, 1)` of matrices with equal shapes. -/
theorem concatAll_mat {B : ℕ} : ∀ (l : List (Tens K)) (t : Tens K), t.shape = [B, a, b] → (∀ u ∈ l, u.shape = [B, a, b]) →
    ∃ r, Tens.concatAll (t :: l) 1 = .ok r ∧ r.shape = [B, (l.length + 1) * a, b] ∧
      ∀ k (q : ℕ) (hq : q < (t :: l).length) x y, x < a → r.val [k, a * q + x, y] = ((t :: l)[q]).val [k, x, y] := by
  intro l
  induction l using List.reverseRecOn with
  | nil =>
    intro t ht _
    refine ⟨t, rfl, by simpa using ht, fun k q hq x y _ => ?_⟩
    obtain rfl : q = 0 := by simpa using hq
    simp
  | append_singleton l u ih =>
    intro t ht hu
    obtain ⟨r, h1, h2, h3⟩ := ih t ht fun u hu' => hu u (by simp [hu'])
    have hus := hu u (by simp)
    have e : Tens.concatAll (t :: (l ++ [u])) 1 = r.concat u 1 := by
      have h1' : l.foldlM (fun a b => Tens.concat a b 1) t = .ok r := h1
      show (l ++ [u]).foldlM (fun a b => Tens.concat a b 1) t = _
      rw [List.foldlM_append, h1', tens_bind]
      simp
    obtain ⟨rs, rv⟩ := r
    obtain ⟨us, uv⟩ := u
    dsimp only at h2 hus
    subst h2 hus
    rw [e]
    refine ⟨_, concat_eq (by rfl) (by rfl) (by rfl), by simp; ring, fun k q hq x y hx => ?_⟩
    simp only [List.length_cons, List.length_append, List.length_nil] at hq
    by_cases hql : q < l.length + 1
    · have := h3 k q (by simpa using hql) x y hx
      have hlt : a * q + x < (l.length + 1) * a := by
        have := Nat.mul_le_mul_left a (show q + 1 ≤ l.length + 1 from hql)
        rw [Nat.mul_comm (l.length + 1)]
        rw [Nat.mul_add, Nat.mul_one] at this
        omega
      have hg : (t :: (l ++ [(⟨[B, a, b], uv⟩ : Tens K)]))[q] = (t :: l)[q] := by
        simp only [← List.cons_append]
        exact List.getElem_append_left (by simpa using hql)
      rw [hg, ← this]
      simp [hlt]
    · obtain rfl : q = l.length + 1 := by omega
      have hge : ¬ (a * (l.length + 1) + x < (l.length + 1) * a) := by rw [Nat.mul_comm]; omega
      have hs : a * (l.length + 1) + x - (l.length + 1) * a = x := by rw [Nat.mul_comm]; omega
      simp [hge, hs]

theorem concatAll_vec {B : ℕ} : ∀ (l : List (Tens K)) (t : Tens K), t.shape = [B, a] → (∀ u ∈ l, u.shape = [B, a]) →
    ∃ r, Tens.concatAll (t :: l) 1 = .ok r ∧ r.shape = [B, (l.length + 1) * a] ∧
      ∀ k (q : ℕ) (hq : q < (t :: l).length) x, x < a → r.val [k, a * q + x] = ((t :: l)[q]).val [k, x] := by
  intro l
  induction l using List.reverseRecOn with
  | nil =>
    intro t ht _
    refine ⟨t, rfl, by simpa using ht, fun k q hq x _ => ?_⟩
    obtain rfl : q = 0 := by simpa using hq
    simp
  | append_singleton l u ih =>
    intro t ht hu
    obtain ⟨r, h1, h2, h3⟩ := ih t ht fun u hu' => hu u (by simp [hu'])
    have hus := hu u (by simp)
    have e : Tens.concatAll (t :: (l ++ [u])) 1 = r.concat u 1 := by
      have h1' : l.foldlM (fun a b => Tens.concat a b 1) t = .ok r := h1
      show (l ++ [u]).foldlM (fun a b => Tens.concat a b 1) t = _
      rw [List.foldlM_append, h1', tens_bind]
      simp
    obtain ⟨rs, rv⟩ := r
    obtain ⟨us, uv⟩ := u
    dsimp only at h2 hus
    subst h2 hus
    rw [e]
    refine ⟨_, concat_eq (by rfl) (by rfl) (by rfl), by simp; ring, fun k q hq x hx => ?_⟩
    simp only [List.length_cons, List.length_append, List.length_nil] at hq
    by_cases hql : q < l.length + 1
    · have := h3 k q (by simpa using hql) x hx
      have hlt : a * q + x < (l.length + 1) * a := by
        have := Nat.mul_le_mul_left a (show q + 1 ≤ l.length + 1 from hql)
        rw [Nat.mul_comm (l.length + 1)]
        rw [Nat.mul_add, Nat.mul_one] at this
        omega
      have hg : (t :: (l ++ [(⟨[B, a], uv⟩ : Tens K)]))[q] = (t :: l)[q] := by
        simp only [← List.cons_append]
        exact List.getElem_append_left (by simpa using hql)
      rw [hg, ← this]
      simp [hlt]
    · obtain rfl : q = l.length + 1 := by omega
      have hge : ¬ (a * (l.length + 1) + x < (l.length + 1) * a) := by rw [Nat.mul_comm]; omega
      have hs : a * (l.length + 1) + x - (l.length + 1) * a = x := by rw [Nat.mul_comm]; omega
      simp [hge, hs]

/-- A list of `N` batches stacked by rows. -/
theorem concatAll_isMt {l : List (Tens K)} (hl : l.length = N) (hN : 0 < N) {e : κ ≃ Fin b} {bs : List β}
    {g : β → ℕ → Matrix (Fin a) κ K} (h : ∀ (i : ℕ) (hi : i < l.length), (l[i]).IsMt (Equiv.refl _) e bs fun x => g x i) :
    ∃ r, Tens.concatAll l 1 = .ok r ∧ r.IsMt finProdFinEquiv e bs fun x => of fun (ia : Fin N × Fin a) c => g x ia.1 ia.2 c := by
  cases l with
  | nil => simp at hl; omega
  | cons t l =>
    obtain ⟨r, h1, h2, h3⟩ := concatAll_mat l t (h 0 (by simp)).1 fun u hu => by
      obtain ⟨i, hi, rfl⟩ := List.mem_iff_getElem.1 hu
      exact (h (i + 1) (by simpa using hi)).1
    refine ⟨r, h1, by rw [h2, ← hl]; rfl, ?_⟩
    rintro k hk ⟨i, x⟩ j
    have hi : i.val < (t :: l).length := by rw [hl]; exact i.2
    have := h3 k i.val hi x.val (e j).val x.2
    rw [show (finProdFinEquiv (i, x)).val = a * i.val + x.val by simp [Nat.add_comm], this]
    exact (h i.val hi).2 k hk x j

theorem concatAll_isVt {l : List (Tens K)} (hl : l.length = N) (hN : 0 < N) {bs : List β}
    {g : β → ℕ → Fin a → K} (h : ∀ (i : ℕ) (hi : i < l.length), (l[i]).IsVt (Equiv.refl _) bs fun x => g x i) :
    ∃ r, Tens.concatAll l 1 = .ok r ∧ r.IsVt finProdFinEquiv bs fun x (ia : Fin N × Fin a) => g x ia.1 ia.2 := by
  cases l with
  | nil => simp at hl; omega
  | cons t l =>
    obtain ⟨r, h1, h2, h3⟩ := concatAll_vec l t (h 0 (by simp)).1 fun u hu => by
      obtain ⟨i, hi, rfl⟩ := List.mem_iff_getElem.1 hu
      exact (h (i + 1) (by simpa using hi)).1
    refine ⟨r, h1, by rw [h2, ← hl]; rfl, ?_⟩
    rintro k hk ⟨i, x⟩
    have hi : i.val < (t :: l).length := by rw [hl]; exact i.2
    have := h3 k i.val hi x.val x.2
    rw [show (finProdFinEquiv (i, x)).val = a * i.val + x.val by simp [Nat.add_comm], this]
    exact (h i.val hi).2 k hk x

section Loops
variable [Field K] {n m p : ℕ}

theorem range_tail (k : ℕ) : (List.range (k + 1)).tail = (List.range k).map (· + 1) := by
  rw [List.range_succ_eq_map, List.tail_cons]

/-- The first loop. -/
theorem tensLambdaLoop_rep {t : Tens K} {bs : List β} {F : β → Fin N → Matrix (Fin n) (Fin n) K} (hN : 0 < N) (h : t.IsM4 bs F) :
    ∃ l s, tensLambdaLoop t = .ok (l, s) ∧ l.length = N ∧
      (∀ (i : ℕ) (hi : i < l.length), (l[i]).IsMt (Equiv.refl _) (Equiv.refl _) bs fun x => tfLambda (F x) i) ∧
      s.IsMt (Equiv.refl _) (Equiv.refl _) bs fun x => tfFstar (F x) (N - 1) := by
  obtain ⟨s0, s1, s2, -, -⟩ := h.sizes
  obtain ⟨f0, hf0, hf0'⟩ := h.select hN
  have step : ∀ j, j < N → ∃ l s, (List.range j).foldlM (fun (st : List (Tens K) × Tens K) k => do
      let Fstar ← (← t.select 1 (k + 1)).matmul st.2
      return (st.1 ++ [st.2], Fstar)) ([Tens.eye bs.length n], f0) = .ok (l, s) ∧ l.length = j + 1 ∧
      (∀ (i : ℕ) (hi : i < l.length), (l[i]).IsMt (Equiv.refl _) (Equiv.refl _) bs fun x => tfLambda (F x) i) ∧
      s.IsMt (Equiv.refl _) (Equiv.refl _) bs fun x => tfFstar (F x) j := by
    intro j
    induction j with
    | zero =>
      intro hj
      refine ⟨_, _, rfl, rfl, fun i hi => ?_, ?_⟩
      · obtain rfl : i = 0 := by simpa using hi
        exact eye_isMt _ _
      · simpa [tfFstar, hj] using hf0'
    | succ j ih =>
      intro hj
      obtain ⟨l, s, h1, h2, h3, h4⟩ := ih (by omega)
      obtain ⟨f, hf, hf'⟩ := h.select hj
      obtain ⟨s', hs, hs'⟩ := hf'.matmul h4
      refine ⟨l ++ [s], s', ?_, by simp [h2], fun i hi => ?_, ?_⟩
      · rw [List.range_succ, List.foldlM_append, h1, tens_bind]
        simp only [List.foldlM_cons, List.foldlM_nil, hf, tens_bind, hs]
        rfl
      · by_cases hi' : i < l.length
        · rw [List.getElem_append_left hi']; exact h3 i hi'
        · obtain rfl : i = l.length := by simp at hi; omega
          simp only [List.getElem_append_right (Nat.le_refl _), Nat.sub_self, List.getElem_cons_zero]
          rw [h2]
          exact h4
      · simpa only [tfFstar, dif_pos hj] using hs'
  obtain ⟨N, rfl⟩ : ∃ k, N = k + 1 := ⟨N - 1, by omega⟩
  obtain ⟨l, s, h1, h2, h3, h4⟩ := step N (by omega)
  refine ⟨l, s, ?_, h2, h3, h4⟩
  unfold tensLambdaLoop
  simp only [s0, s1, s2, hf0, tens_bind, range_tail, List.foldlM_map]
  exact h1

/-- The row of `k + 1` column blocks. -/
def RowRep (t : Tens K) (bs : List β) (k : ℕ) (g : β → List (Matrix (Fin n) (Fin m) K)) : Prop :=
  t.shape = [bs.length, n, (k + 1) * m] ∧ ∀ (x : ℕ) (h : x < bs.length) (i : Fin n) (j : ℕ) (y : Fin m) (hj : j < (g bs[x]).length),
    t.val [x, i.val, m * j + y.val] = (g bs[x])[j] i y

theorem RowRep.pad {t L : Tens K} {bs : List β} {k : ℕ} {g : β → List (Matrix (Fin n) (Fin m) K)} (h : RowRep t bs k g)
    (hg : ∀ x, (g x).length = k + 1) (hk : k < N) (hL : L.size 3 = .ok m) :
    ∃ r, tensPadRow N L t = .ok r ∧ r.IsMt (Equiv.refl _) (Equiv.refl _) bs fun x => tfPadRow N (g x) := by
  obtain ⟨s, v⟩ := t
  obtain ⟨h1, h2⟩ := h
  dsimp only at h1 h2
  subst h1
  have hw : (k + 1) * m + (m * N - (k + 1) * m) = N * m := by
    have : (k + 1) * m ≤ N * m := Nat.mul_le_mul_right _ hk
    rw [Nat.mul_comm m N]; omega
  refine ⟨⟨[bs.length, n, 0 + (k + 1) * m + (m * N - (k + 1) * m)], fun i => if 0 ≤ i.getD 2 0 ∧ i.getD 2 0 < 0 + (k + 1) * m then
    v (i.set 2 (i.getD 2 0 - 0)) else 0⟩, ?_, by simp [hw], ?_⟩
  · unfold tensPadRow
    rw [hL]
    rfl
  · intro x hx i ub
    have hm : 0 < m := Nat.pos_of_ne_zero fun h => absurd ub.2 (by simp [h])
    have hsym : (finProdFinEquiv.symm ub).1.val = ub.val / m ∧ (finProdFinEquiv.symm ub).2.val = ub.val % m := by
      simp [finProdFinEquiv, Fin.divNat, Fin.modNat]
    have hub : m * (ub.val / m) + ub.val % m = ub.val := Nat.div_add_mod _ _
    by_cases hlt : ub.val < (k + 1) * m
    · have hd : ub.val / m < k + 1 := by rwa [Nat.div_lt_iff_lt_mul hm]
      have := h2 x hx i (ub.val / m) (finProdFinEquiv.symm ub).2 (by rw [hg]; exact hd)
      rw [hsym.2, hub] at this
      have hd' : (finProdFinEquiv.symm ub).1.val < (g bs[x]).length := by rw [hg, hsym.1]; exact hd
      have e : tfPadRow N (g bs[x]) i ub = ((g bs[x])[ub.val / m]'(by rw [hg]; exact hd)) i (finProdFinEquiv.symm ub).2 := by
        simp only [tfPadRow, of_apply, hsym.1]
        rw [List.getElem?_eq_getElem (by rw [hg]; exact hd)]
      refine Eq.trans ?_ e.symm
      rw [← this]
      simp [hlt]
    · have hd : ¬ ub.val / m < k + 1 := by rwa [Nat.div_lt_iff_lt_mul hm]
      have e : tfPadRow N (g bs[x]) i ub = 0 := by
        simp only [tfPadRow, of_apply, hsym.1]
        rw [List.getElem?_eq_none (by rw [hg]; omega)]
      refine Eq.trans ?_ e.symm
      simp [hlt]

/-- One column block more. -/
theorem RowRep.next {t F L : Tens K} {bs : List β} {k : ℕ} {g : β → List (Matrix (Fin n) (Fin m) K)} (h : RowRep t bs k g)
    {f : β → Matrix (Fin n) (Fin n) K} {l : β → Matrix (Fin n) (Fin m) K} (hF : F.IsMt (Equiv.refl _) (Equiv.refl _) bs f)
    (hL : L.IsMt (Equiv.refl _) (Equiv.refl _) bs l) (hg : ∀ x, (g x).length = k + 1) :
    ∃ q r, F.matmul t = .ok q ∧ q.concat L 2 = .ok r ∧ RowRep r bs (k + 1) fun x => (g x).map (fun A => f x * A) ++ [l x] := by
  obtain ⟨s, v⟩ := t
  obtain ⟨h1, h2⟩ := h
  obtain ⟨s', v'⟩ := F
  obtain ⟨h3, h4⟩ := hF
  obtain ⟨s'', v''⟩ := L
  obtain ⟨h5, h6⟩ := hL
  dsimp only at h1 h2 h3 h4 h5 h6
  subst h1 h3 h5
  refine ⟨_, _, if_pos ⟨rfl, rfl⟩, concat_eq (by rfl) (by rfl) (by rfl), ?_, ?_⟩
  · show [bs.length, n, (k + 1) * m + m] = _
    congr 3; ring
  · intro x hx i j y hj
    simp only [List.length_append, List.length_map, List.length_cons, List.length_nil, hg] at hj
    have hy := y.2
    by_cases hjk : j < k + 1
    · have hlt : m * j + y.val < (k + 1) * m := by
        have := Nat.mul_le_mul_left m (show j + 1 ≤ k + 1 from hjk)
        rw [Nat.mul_comm (k + 1)]
        rw [Nat.mul_add, Nat.mul_one] at this
        omega
      have hj' : j < ((g bs[x]).map fun A => f bs[x] * A).length := by simp [hg, hjk]
      rw [List.getElem_append_left hj', List.getElem_map, mul_apply]
      have e : ∀ w : Fin n, f bs[x] i w * ((g bs[x])[j]'(by simpa using hj')) w y = v' [x, i.val, w.val] * v [x, w.val, m * j + y.val] := fun w => by
        rw [h2 x hx w j y (by simpa using hj'), ← h4 x hx i w]; rfl
      simp only [e]
      rw [Fin.sum_univ_eq_sum_range (fun w => v' [x, i.val, w] * v [x, w, m * j + y.val]) n]
      simp [hlt]
    · obtain rfl : j = k + 1 := by omega
      have hge : ¬ (m * (k + 1) + y.val < (k + 1) * m) := by rw [Nat.mul_comm]; omega
      have hs : m * (k + 1) + y.val - (k + 1) * m = y.val := by rw [Nat.mul_comm]; omega
      have hlen : ((g bs[x]).map fun A => f bs[x] * A).length = k + 1 := by simp [hg]
      rw [List.getElem_append_right (by omega)]
      simp only [hlen, Nat.sub_self, List.getElem_cons_zero]
      simp [hge, hs]
      exact h6 x hx i y

theorem tfLrow_length (b : Fin N → TStage n m p K) {k : ℕ} (h : k < N) : (tfLrow b k).length = k + 1 := (tfLrow_eq b h).1

/-- The second loop. -/
theorem tensRowLoop_rep {Ft Lt ct : Tens K} {bs : List β} {B : β → Fin N → TStage n m p K} (hN : 0 < N)
    (hF : Ft.IsM4 bs fun x i => (B x i).F) (hL : Lt.IsM4 bs fun x i => (B x i).L) (hc : ct.IsV3 bs fun x i => (B x i).c) :
    ∃ l0 c0, Lt.select 1 0 = .ok l0 ∧ ct.select 1 0 = .ok c0 ∧ ∀ j < N, ∃ st, (List.range j).foldlM (tensRowStep N Ft Lt ct)
        ⟨[Tens.const [bs.length, n, m * N] 0], [Tens.const [bs.length, n] 0], l0, c0⟩ = .ok st ∧
      st.Lbar_list.length = j + 1 ∧ st.cbar_list.length = j + 1 ∧
      (∀ (i : ℕ) (hi : i < st.Lbar_list.length),
        (st.Lbar_list[i]).IsMt (Equiv.refl _) (Equiv.refl _) bs fun x => tfLbar (B x) i) ∧
      (∀ (i : ℕ) (hi : i < st.cbar_list.length), (st.cbar_list[i]).IsVt (Equiv.refl _) bs fun x => tfCbar (B x) i) ∧
      RowRep st.Lbar_row bs j (fun x => tfLrow (B x) j) ∧ st.cbar_row.IsVt (Equiv.refl _) bs fun x => tfCrow (B x) j := by
  obtain ⟨l0, hl0, hl0'⟩ := hL.select hN
  obtain ⟨c0, hc0, hc0'⟩ := hc.select hN
  refine ⟨l0, c0, hl0, hc0, fun j => ?_⟩
  induction j with
  | zero =>
    intro hj
    refine ⟨_, rfl, rfl, rfl, fun i hi => ?_, fun i hi => ?_, ?_, ?_⟩
    · obtain rfl : i = 0 := by simpa using hi
      refine ⟨by simp [Tens.const, Nat.mul_comm], fun _ _ _ _ => rfl⟩
    · obtain rfl : i = 0 := by simpa using hi
      exact zero_isVt _ _
    · refine ⟨by rw [hl0'.1]; simp, fun x hx i j y hj' => ?_⟩
      have e : tfLrow (B bs[x]) 0 = [(B bs[x] ⟨0, hN⟩).L] := by simp only [tfLrow, dif_pos hj]
      obtain rfl : j = 0 := by
        have : j < (tfLrow (B bs[x]) 0).length := hj'
        rw [e] at this
        simpa using this
      refine Eq.trans ?_ (congrFun (congrFun (List.getElem_of_eq e hj') i) y).symm
      simpa using hl0'.2 x hx i y
    · simpa [tfCrow, hj] using hc0'
  | succ j ih =>
    intro hj
    obtain ⟨st, h1, h2, h3, h4, h5, h6, h7⟩ := ih (by omega)
    obtain ⟨f, hf, hf'⟩ := hF.select hj
    obtain ⟨l, hl, hl'⟩ := hL.select hj
    obtain ⟨c, hcc, hc'⟩ := hc.select hj
    obtain ⟨P, hP, hP'⟩ := h6.pad (N := N) (fun x => tfLrow_length (B x) (by omega)) (by omega) hL.sizes.2.2.2.1
    obtain ⟨q, r, hq, hr, hr'⟩ := h6.next hf' hl' fun x => tfLrow_length (B x) (by omega)
    obtain ⟨w, hw, hw'⟩ := hf'.matvec h7
    obtain ⟨z, hz, hz'⟩ := hw'.bin (· + ·) hc'
    refine ⟨⟨st.Lbar_list ++ [P], st.cbar_list ++ [st.cbar_row], r, z⟩, ?_, by simp [h2], by simp [h3], fun i hi => ?_, fun i hi => ?_,
      ?_, ?_⟩
    · rw [List.range_succ, List.foldlM_append, h1, tens_bind]
      simp only [List.foldlM_cons, List.foldlM_nil, tensRowStep, hP, hf, hq, hl, hr, hw, hcc, hz, tens_bind]
      rfl
    · by_cases hi' : i < st.Lbar_list.length
      · simp only [List.getElem_append_left hi']; exact h4 i hi'
      · obtain rfl : i = st.Lbar_list.length := by simp at hi; omega
        simp only [List.getElem_append_right (Nat.le_refl _), Nat.sub_self, List.getElem_cons_zero]
        rw [h2]
        exact hP'
    · by_cases hi' : i < st.cbar_list.length
      · simp only [List.getElem_append_left hi']; exact h5 i hi'
      · obtain rfl : i = st.cbar_list.length := by simp at hi; omega
        simp only [List.getElem_append_right (Nat.le_refl _), Nat.sub_self, List.getElem_cons_zero]
        rw [h3]
        exact h7
    · simpa only [tfLrow, dif_pos hj] using hr'
    · have e : (fun x => tfCrow (B x) (j + 1)) = fun x i => ((B x ⟨j + 1, hj⟩).F *ᵥ tfCrow (B x) j) i + (B x ⟨j + 1, hj⟩).c i := by
        funext x i
        simp only [tfCrow, dif_pos hj, Pi.add_apply]
      rw [e]
      exact hz'

end Loops

/-! ### The linear systems -/

theorem mapM_range {γ : Type} (G : ℕ → Py γ) (H : β → Py γ) : ∀ bs : List β, (∀ (k : ℕ) (h : k < bs.length), G k = H bs[k]) →
    (List.range bs.length).mapM G = bs.mapM H := by
  intro bs
  induction bs generalizing G with
  | nil => intro _; rfl
  | cons b bs ih =>
    intro h
    have h0 : G 0 = H b := h 0 (by simp)
    rw [List.length_cons, List.range_succ_eq_map, List.mapM_cons, List.mapM_map, List.mapM_cons, h0,
      ih (G ∘ Nat.succ) fun k hk => h (k + 1) (by simpa using hk)]

theorem mapM_bind_ok {γ δ : Type} {S : β → Py γ} {H : β → Py δ} {mk : β → γ → δ} (h : ∀ b, H b = (do let x ← S b; return mk b x)) :
    ∀ {bs : List β} {xs : List γ}, bs.mapM S = .ok xs → xs.length = bs.length ∧ bs.mapM H = .ok (List.zipWith mk bs xs) := by
  intro bs
  induction bs with
  | nil => intro xs hx; cases hx; exact ⟨rfl, rfl⟩
  | cons b bs ih =>
    intro xs hx
    rw [List.mapM_cons] at hx
    obtain ⟨y, hy, hx⟩ := bind_ok.1 hx
    obtain ⟨ys, hys, hx⟩ := bind_ok.1 hx
    cases hx
    obtain ⟨h1, h2⟩ := ih hys
    refine ⟨by simp [h1], ?_⟩
    rw [List.mapM_cons, h2, h, hy]
    rfl

theorem mapM_bind_err {γ δ : Type} {S : β → Py γ} {H : β → Py δ} {mk : β → γ → δ} (h : ∀ b, H b = (do let x ← S b; return mk b x)) {e : PyErr} :
    ∀ {bs : List β}, bs.mapM S = .error e → bs.mapM H = .error e := by
  intro bs
  induction bs with
  | nil => intro hx; cases hx
  | cons b bs ih =>
    intro hx
    rw [List.mapM_cons] at hx ⊢
    rw [h]
    cases hy : S b with
    | error e' => rw [hy] at hx; cases hx; rfl
    | ok y =>
      rw [hy] at hx
      cases hys : bs.mapM S with
      | error e' => rw [hys] at hx; cases hx; rw [ih hys]; rfl
      | ok ys => rw [hys] at hx; cases hx

theorem sumE_refl : sumE (Equiv.refl (Fin a)) (Equiv.refl (Fin b)) = finSumFinEquiv := by
  ext x; cases x <;> simp

theorem Tens.IsVt.numbered {t : Tens K} {bs : List β} {f : β → Fin a → K} (h : t.IsVt (Equiv.refl _) bs f) (e : ι ≃ Fin a) :
    t.IsVt e bs fun x i => f x (e i) := ⟨h.1, fun k hk i => h.2 k hk (e i)⟩

theorem solve_rep [Field K] [DecidableEq K] {A t : Tens K} {e : ι ≃ Fin a} {bs : List β} {f : β → Matrix ι ι K} {g : β → ι → K}
    (hA : A.IsMt e e bs f) (ht : t.IsVt e bs g) :
    ∃ q, t.expandDims (-1) = .ok q ∧
      (∀ xs, bs.mapM (fun x => solveV ((f x).submatrix e.symm e.symm) (g x ∘ e.symm)) = .ok xs →
        ∃ r y, A.solve q = .ok r ∧ r.select (-1) 0 = .ok y ∧ y.IsVt (Equiv.refl _) xs fun x => x) ∧
      ∀ er, bs.mapM (fun x => solveV ((f x).submatrix e.symm e.symm) (g x ∘ e.symm)) = .error er → A.solve q = .error er := by
  obtain ⟨s, v⟩ := A
  obtain ⟨h1, h2⟩ := hA
  obtain ⟨s', v'⟩ := t
  obtain ⟨h3, h4⟩ := ht
  dsimp only at h1 h2 h3 h4
  subst h1 h3
  have key : (⟨[bs.length, a, a], v⟩ : Tens K).solve ⟨[bs.length, a, 1], fun i => v' (i.eraseIdx 2)⟩ = (do
      let l ← bs.mapM fun x => do
        let x ← solveV ((f x).submatrix e.symm e.symm) (g x ∘ e.symm)
        return (⟨[a, 1], fun i => if h : i.getD 0 0 < a then x ⟨_, h⟩ else 0⟩ : Tens K)
      Tens.stack [a, 1] (fun _ => 0) l) := by
    refine Eq.trans (if_pos ⟨rfl, rfl, rfl⟩) ?_
    refine congrArg (· >>= _) (mapM_range _ _ bs fun k hk => ?_)
    have e1 : (fun i j : Fin a => v [k, i.val, j.val]) = (f bs[k]).submatrix e.symm e.symm := by
      funext i j
      simpa using h2 k hk (e.symm i) (e.symm j)
    have e2 : (fun i : Fin a => v' ([k, i.val, 0].eraseIdx 2)) = g bs[k] ∘ e.symm := by
      funext i
      simpa using h4 k hk (e.symm i)
    rw [← e1, ← e2]
  refine ⟨⟨[bs.length, a, 1], fun i => v' (i.eraseIdx 2)⟩, rfl, fun xs hxs => ?_, fun er her => ?_⟩
  · obtain ⟨hl, hm⟩ := mapM_bind_ok (mk := fun _ x => (⟨[a, 1], fun i => if h : i.getD 0 0 < a then x ⟨_, h⟩ else 0⟩ : Tens K))
      (fun _ => rfl) hxs
    have hz : List.zipWith (fun _ x => (⟨[a, 1], fun i => if h : i.getD 0 0 < a then x ⟨_, h⟩ else 0⟩ : Tens K)) bs xs =
        xs.map fun x => ⟨[a, 1], fun i => if h : i.getD 0 0 < a then x ⟨_, h⟩ else 0⟩ :=
      List.ext_getElem (by simp [hl]) fun _ _ _ => by simp
    rw [hz] at hm
    rw [key, hm, tens_bind]
    generalize hL : (xs.map fun x => (⟨[a, 1], fun i => if h : i.getD 0 0 < a then x ⟨_, h⟩ else 0⟩ : Tens K)) = L
    have hs : Tens.stack [a, 1] (fun _ => 0) L =
        .ok ⟨[L.length, a, 1], fun i => match L[i.getD 0 0]? with | some t => t.val i.tail | none => 0⟩ :=
      if_pos (by simp [← hL])
    refine ⟨_, _, hs, rfl, by simp [← hL], fun k hk i => ?_⟩
    simp [← hL, hk]
  · rw [key, mapM_bind_err (fun _ => rfl) her]
    rfl

end Verif
