import Verif.Props.TensorRep
import Verif.Model.FSCTensor
import Verif.Proof.Argmin
import Verif.Proof.ScanTotal

/-! Lemmas on the tensor operations. -/

namespace Verif

variable {K L : Type}

theorem tens_bind {β γ : Type} (a : β) (f : β → Py γ) : ((Except.ok a : Py β) >>= f) = f a := rfl

theorem tens_pure {β : Type} (a : β) : (pure a : Py β) = Except.ok a := rfl

theorem mem_allIdx_nil {i : List ℕ} : i ∈ allIdx [] ↔ i = [] := by simp [allIdx]

theorem mem_allIdx_cons {n : ℕ} {s i : List ℕ} : i ∈ allIdx (n :: s) ↔ ∃ k j, i = k :: j ∧ k < n ∧ j ∈ allIdx s := by
  simp only [allIdx, List.mem_flatMap, List.mem_range, List.mem_map]
  constructor
  · rintro ⟨a, h, b, hb, rfl⟩; exact ⟨a, b, rfl, h, hb⟩
  · rintro ⟨k, j, rfl, h, hj⟩; exact ⟨k, h, j, hj, rfl⟩

theorem mem_allIdx1 {n : ℕ} {i : List ℕ} : i ∈ allIdx [n] ↔ ∃ k, i = [k] ∧ k < n := by
  simp only [mem_allIdx_cons, mem_allIdx_nil]
  constructor
  · rintro ⟨k, j, rfl, h, rfl⟩; exact ⟨k, rfl, h⟩
  · rintro ⟨k, rfl, h⟩; exact ⟨k, [], rfl, h, rfl⟩

theorem mem_allIdx2 {n m : ℕ} {i : List ℕ} : i ∈ allIdx [n, m] ↔ ∃ k l, i = [k, l] ∧ k < n ∧ l < m := by
  rw [mem_allIdx_cons]
  constructor
  · rintro ⟨k, j, rfl, h, hj⟩
    obtain ⟨l, rfl, hl⟩ := mem_allIdx1.1 hj
    exact ⟨k, l, rfl, h, hl⟩
  · rintro ⟨k, l, rfl, h, hl⟩; exact ⟨k, [l], rfl, h, mem_allIdx1.2 ⟨l, rfl, hl⟩⟩

theorem mem_allIdx3 {n m p : ℕ} {i : List ℕ} : i ∈ allIdx [n, m, p] ↔ ∃ k l q, i = [k, l, q] ∧ k < n ∧ l < m ∧ q < p := by
  rw [mem_allIdx_cons]
  constructor
  · rintro ⟨k, j, rfl, h, hj⟩
    obtain ⟨l, q, rfl, hl, hq⟩ := mem_allIdx2.1 hj
    exact ⟨k, l, q, rfl, h, hl, hq⟩
  · rintro ⟨k, l, q, rfl, h, hl, hq⟩; exact ⟨k, [l, q], rfl, h, mem_allIdx2.2 ⟨l, q, rfl, hl, hq⟩⟩

theorem mem_allIdx4 {n m p q : ℕ} {i : List ℕ} :
    i ∈ allIdx [n, m, p, q] ↔ ∃ k l a b, i = [k, l, a, b] ∧ k < n ∧ l < m ∧ a < p ∧ b < q := by
  rw [mem_allIdx_cons]
  constructor
  · rintro ⟨k, j, rfl, h, hj⟩
    obtain ⟨l, a, b, rfl, hl, hq⟩ := mem_allIdx3.1 hj
    exact ⟨k, l, a, b, rfl, h, hl, hq⟩
  · rintro ⟨k, l, a, b, rfl, h, hl, hq⟩; exact ⟨k, [l, a, b], rfl, h, mem_allIdx3.2 ⟨l, a, b, rfl, hl, hq⟩⟩

theorem foldl_range_min1 [LinearOrder K] {n : ℕ} [NeZero n] (g : ℕ → K) :
    (List.range n).foldl (fun b k => min b (g k)) (g 0) = min1 fun k : Fin n => g k := by
  have : List.range n = (List.finRange n).map Fin.val := by
    simp
  rw [this, List.foldl_map]
  simp [min1]

theorem tfAxis_nat {rank a : ℕ} (h : a < rank) : tfAxis rank (a : ℤ) = .ok a := by
  simp [tfAxis, h]

theorem Tens.reduceMin_eq [LinearOrder K] {t : Tens K} {axis : ℤ} {a n : ℕ} [NeZero n] (ha : tfAxis t.shape.length axis = .ok a)
    (hn : t.shape.getD a 0 = n) : t.reduceMin axis = .ok ⟨t.shape.eraseIdx a, fun i => min1 fun k : Fin n => t.val (i.insertIdx a k)⟩ := by
  have h0 : n ≠ 0 := NeZero.ne n
  simp only [Tens.reduceMin, ha, hn, tens_bind, h0, if_false]
  refine congrArg Except.ok ?_
  refine congrArg _ ?_
  funext i
  exact foldl_range_min1 fun k => t.val (i.insertIdx a k)

theorem Tens.argmin_eq (am : AArgmin K) {t : Tens K} {axis : ℤ} {a n : ℕ} [NeZero n] (ha : tfAxis t.shape.length axis = .ok a)
    (hn : t.shape.getD a 0 = n) :
    t.argmin am axis = .ok ⟨t.shape.eraseIdx a, fun i => (am n fun k : Fin n => t.val (i.insertIdx a k)).val⟩ := by
  subst hn
  have h0 : t.shape.getD a 0 ≠ 0 := NeZero.ne _
  simp only [Tens.argmin, ha, tens_bind, h0, dif_neg, not_false_eq_true]
  rfl

theorem scatter_foldl (indices : Tens ℕ) (updates : Tens K) (ix : List ℕ → List ℕ)
    (hix : ∀ o, ix o = (List.range (indices.shape.getLastD 0)).map fun j => indices.val (o ++ [j])) :
    ∀ (l : List (List ℕ)) (v : List ℕ → K) (i : List ℕ),
      (∀ o ∈ l, ix o = i → (∀ o' ∈ l, ix o' = i → o' = o) → l.foldl (scatterStep indices updates) v i = updates.val o) ∧
      ((∀ o ∈ l, ix o ≠ i) → l.foldl (scatterStep indices updates) v i = v i) := by
  intro l
  induction l with
  | nil => intro v i; exact ⟨fun o ho => by simp at ho, fun _ => rfl⟩
  | cons a l ih =>
    intro v i
    have hs : ∀ j, scatterStep indices updates v a j = if j = ix a then updates.val a else v j := by
      intro j
      simp only [scatterStep, ← hix, Function.update_apply]
    constructor
    · intro o ho hi hu
      rw [List.foldl_cons]
      by_cases hol : o ∈ l
      · exact (ih _ i).1 o hol hi fun o' ho' => hu o' (by simp [ho'])
      · have hoa : o = a := by
          rcases List.mem_cons.1 ho with h | h
          · exact h
          · exact absurd h hol
        subst hoa
        rw [(ih _ i).2 fun o' ho' h => hol ((hu o' (by simp [ho']) h) ▸ ho'), hs, if_pos hi.symm]
    · intro h
      rw [List.foldl_cons, (ih _ i).2 fun o ho => h o (by simp [ho]), hs, if_neg fun e => h a (by simp) e.symm]

/-- A scan of related items with related operations gives related items. -/
theorem scan_transfer {α β : Type} {scanA : (α → α → Py α) → List α → Py (List α)}
    {scanB : (β → β → Py β) → List β → Py (List β)} (hA : IsAssocScan scanA) (hB : IsAssocScan scanB) (R : α → β → Prop)
    {opA : α → α → Py α} {g : β → β → β} (hop : ∀ a a' b b', R a b → R a' b' → ∃ c, opA a a' = .ok c ∧ R c (g b b'))
    (hassoc : ∀ x y z, g (g x y) z = g x (g y z)) {la : List α} {lb : List β} (hl : List.Forall₂ R la lb) (hne : la ≠ []) :
    ∃ ra rb, scanA opA la = .ok ra ∧ scanB (fun x y => .ok (g x y)) lb = .ok rb ∧ List.Forall₂ R ra rb ∧ rb.length = lb.length := by
  have hneb : lb ≠ [] := by rintro rfl; cases hl; exact hne rfl
  obtain ⟨ra, hra⟩ := hA.total (op := opA) (l := la) (fun a => ∃ b, R a b)
    (fun x y ⟨b, hb⟩ ⟨b', hb'⟩ => by obtain ⟨c, hc, hr⟩ := hop _ _ _ _ hb hb'; exact ⟨c, hc, _, hr⟩) hne
    (fun x hx => by
      obtain ⟨i, hi, rfl⟩ := List.getElem_of_mem hx
      exact ⟨_, hl.get hi (by rw [← hl.length_eq]; exact hi)⟩)
  obtain ⟨rb, hrb⟩ := hB.total (op := fun x y => .ok (g x y)) (l := lb) (fun _ => True) (fun x y _ _ => ⟨_, rfl, trivial⟩) hneb
    (fun _ _ => trivial)
  refine ⟨ra, rb, hra, hrb, ?_, (hB.pref hrb).1⟩
  have key : ∀ {l : List α} {v : α}, Paren opA l v → ∀ {l' : List β}, List.Forall₂ R l l' →
      ∃ w, R v w ∧ Paren (fun x y => .ok (g x y)) l' w := by
    intro l v h
    induction h with
    | single x => intro l' h'; cases h' with | cons h1 h2 => cases h2; exact ⟨_, h1, .single _⟩
    | @node l r x y z h1 h2 ho ih1 ih2 =>
      intro l' h'
      obtain ⟨l1, l2, e1, e2, rfl⟩ : ∃ l1 l2, List.Forall₂ R l l1 ∧ List.Forall₂ R r l2 ∧ l' = l1 ++ l2 := by
        have ht := List.forall₂_take l.length h'
        have hd := List.forall₂_drop l.length h'
        rw [List.take_left] at ht
        rw [List.drop_left] at hd
        exact ⟨_, _, ht, hd, (List.take_append_drop _ _).symm⟩
      obtain ⟨w1, r1, p1⟩ := ih1 e1
      obtain ⟨w2, r2, p2⟩ := ih2 e2
      obtain ⟨c, hc, hr⟩ := hop _ _ _ _ r1 r2
      rw [ho] at hc; cases hc
      exact ⟨_, hr, .node p1 p2 rfl⟩
  have hlen := hl.length_eq
  have la1 := (hA.pref hra).1
  have lb1 := (hB.pref hrb).1
  rw [List.forall₂_iff_get]
  refine ⟨by omega, fun k h1 h2 => ?_⟩
  obtain ⟨v, hv, hpv⟩ := (hA.pref hra).2 k (by omega)
  obtain ⟨w, hw, hpw⟩ := (hB.pref hrb).2 k (by omega)
  obtain ⟨w', hr, hp'⟩ := key hpv (List.forall₂_take (k + 1) hl)
  have e1 := paren_foldl1 (P := fun _ => True) (g := g) (fun _ _ _ _ => rfl) (fun _ _ _ _ => trivial)
    (fun x y z _ _ _ => hassoc x y z) hpw (fun _ _ => trivial)
  have e2 := paren_foldl1 (P := fun _ => True) (g := g) (fun _ _ _ _ => rfl) (fun _ _ _ _ => trivial)
    (fun x y z _ _ _ => hassoc x y z) hp' (fun _ _ => trivial)
  rw [e1] at e2; cases e2
  rw [List.getElem?_eq_getElem h1] at hv
  rw [List.getElem?_eq_getElem h2] at hw
  cases hv; cases hw
  exact hr

/-! Axes with literal ranks. -/

theorem tfAxis_last {rank : ℕ} (h : 0 < rank) : tfAxis rank (-1) = .ok (rank - 1) := by
  have h1 : ¬ (0 ≤ (-1 : ℤ) ∧ (-1 : ℤ) < rank) := by omega
  have h2 : (-1 : ℤ) < 0 ∧ 0 ≤ (-1 : ℤ) + rank := by omega
  simp only [tfAxis, h1, h2, if_false, if_true, and_self]
  refine congrArg Except.ok ?_
  omega

theorem Tens.bin_eq {f : K → K → L} {a b : Tens K} {s : List ℕ}
    (hc : (List.zipWith (fun m n => decide (m = n ∨ m = 1 ∨ n = 1)) (padShape (max a.shape.length b.shape.length) a.shape)
      (padShape (max a.shape.length b.shape.length) b.shape)).all id = true)
    (hs : List.zipWith (fun m n => if m = 1 then n else m) (padShape (max a.shape.length b.shape.length) a.shape)
      (padShape (max a.shape.length b.shape.length) b.shape) = s) :
    a.bin f b = .ok ⟨s, fun i => f (a.val (bcastIdx a.shape i)) (b.val (bcastIdx b.shape i))⟩ := by
  simp only [Tens.bin, hc, hs, if_true]

theorem bc_lt {k p : ℕ} (h : k < p) : (if p = 1 then 0 else k) = k := by
  split <;> omega

theorem one_or (n : ℕ) : (if n = 1 then 1 else n) = n := by
  split <;> omega

theorem bin_same3 {f : K → K → L} {p n m : ℕ} (va vb : List ℕ → K) :
    ∃ v, Tens.bin f ⟨[p, n, m], va⟩ ⟨[p, n, m], vb⟩ = .ok ⟨[p, n, m], v⟩ ∧
      ∀ k x y, k < p → x < n → y < m → v [k, x, y] = f (va [k, x, y]) (vb [k, x, y]) := by
  refine ⟨_, Tens.bin_eq ?_ ?_, ?_⟩
  · simp [padShape]
  · simp [padShape]
  · intro k x y h1 h2 h3
    simp [bcastIdx, padShape, bc_lt, h1, h2, h3]

theorem bin_same2 {f : K → K → L} {n m : ℕ} (va vb : List ℕ → K) :
    ∃ v, Tens.bin f ⟨[n, m], va⟩ ⟨[n, m], vb⟩ = .ok ⟨[n, m], v⟩ ∧
      ∀ x y, x < n → y < m → v [x, y] = f (va [x, y]) (vb [x, y]) := by
  refine ⟨_, Tens.bin_eq ?_ ?_, ?_⟩
  · simp [padShape]
  · simp [padShape]
  · intro x y h2 h3
    simp [bcastIdx, padShape, bc_lt, h2, h3]

theorem combV_is [LinearOrder K] [AddCommMonoid K] {n : ℕ} [NeZero n] {a b : Tens K} {la lb : List (Fin n → Fin n → K)}
    (ha : a.IsMs la) (hb : b.IsMs lb) (hl : la.length = lb.length) :
    ∃ c, tensCombV a b = .ok c ∧ c.IsMs (List.zipWith tfFscCombV la lb) := by
  obtain ⟨sa, va⟩ := a
  obtain ⟨sb, vb⟩ := b
  obtain ⟨h1, h2⟩ := ha
  obtain ⟨h3, h4⟩ := hb
  dsimp only at h1 h2 h3 h4
  subst h1 h3
  have e1 : Tens.expandDims ⟨[la.length, n, n], va⟩ (-1) = .ok ⟨[la.length, n, n, 1], fun i => va (i.eraseIdx 3)⟩ := rfl
  have e2 : Tens.expandDims ⟨[lb.length, n, n], vb⟩ 1 = .ok ⟨[lb.length, 1, n, n], fun i => vb (i.eraseIdx 1)⟩ := rfl
  simp only [tensCombV, e1, e2, tens_bind]
  rw [Tens.bin_eq (s := [lb.length, n, n, n]) (by simp [padShape, hl]) (by simp [padShape, hl, one_or])]
  simp only [tens_bind]
  rw [Tens.reduceMin_eq (n := n) (a := 2) rfl rfl]
  refine ⟨_, rfl, by simp [hl], ?_⟩
  intro k hk x y
  have hk' : k < lb.length := by simp at hk; omega
  have hka : k < la.length := by omega
  simp only [List.getElem_zipWith, tfFscCombV]
  congr 1
  funext j
  rw [← h2 k hka x j, ← h4 k hk' j y]
  simp [bcastIdx, padShape, bc_lt, hk', hka, hl]

theorem reshape_range {N : ℕ} {s : List ℕ} (h : s.prod = N) :
    (Tens.range N).reshape s = .ok ⟨s, fun i => ravel s i⟩ := by
  simp [Tens.reshape, Tens.range, unravel, h]

theorem concat_eq {a b : Tens K} {axis : ℤ} {ax : ℕ} {s : List ℕ} (hax : tfAxis a.shape.length axis = .ok ax)
    (he : a.shape.eraseIdx ax = b.shape.eraseIdx ax) (hs : a.shape.set ax (a.shape.getD ax 0 + b.shape.getD ax 0) = s) :
    a.concat b axis = .ok ⟨s, fun i => if i.getD ax 0 < a.shape.getD ax 0 then a.val i
      else b.val (i.set ax (i.getD ax 0 - a.shape.getD ax 0))⟩ := by
  simp only [Tens.concat, hax, tens_bind, he, if_true, tens_pure, ← hs]

theorem scatter4 {nb nx nu : ℕ} (inf : K) (ix : List ℕ → ℕ) (Lv : List ℕ → K) (g : ℕ → ℕ → ℕ → ℕ)
    (h0 : ∀ b x u, b < nb → x < nx → u < nu → ix [b, x, u, 0] = b ∧ ix [b, x, u, 1] = x ∧ ix [b, x, u, 2] = u ∧
      ix [b, x, u, 3] = g b x u ∧ g b x u < nx) :
    ∃ v, (Tens.const [nb, nx, nu, nx] inf).scatterUpdate ⟨[nb, nx, nu, 4], ix⟩ ⟨[nb, nx, nu], Lv⟩ = .ok ⟨[nb, nx, nu, nx], v⟩ ∧
      ∀ b x u xp, b < nb → x < nx → u < nu → v [b, x, u, xp] = if xp = g b x u then Lv [b, x, u] else inf := by
  have hr : List.range 4 = [0, 1, 2, 3] := rfl
  have hI : ∀ b x u, b < nb → x < nx → u < nu → ((List.range 4).map fun j => ix ([b, x, u] ++ [j])) = [b, x, u, g b x u] := by
    intro b x u hb hx hu
    obtain ⟨e0, e1, e2, e3, _⟩ := h0 b x u hb hx hu
    simp [hr, e0, e1, e2, e3]
  have hall : ((allIdx [nb, nx, nu]).all fun o => decide (((List.range 4).map fun j => ix (o ++ [j])) ∈ allIdx [nb, nx, nu, nx])) = true := by
    rw [List.all_eq_true]
    intro o ho
    obtain ⟨b, x, u, rfl, hb, hx, hu⟩ := mem_allIdx3.1 ho
    rw [decide_eq_true_eq, hI b x u hb hx hu]
    exact mem_allIdx4.2 ⟨_, _, _, _, rfl, hb, hx, hu, (h0 b x u hb hx hu).2.2.2.2⟩
  refine ⟨(allIdx [nb, nx, nu]).foldl (scatterStep ⟨[nb, nx, nu, 4], ix⟩ ⟨[nb, nx, nu], Lv⟩) fun _ => inf, ?_, ?_⟩
  · exact (if_pos (⟨rfl, rfl⟩ : 4 = 4 ∧ [nb, nx, nu] = [nb, nx, nu])).trans (if_pos hall)
  · intro b x u xp hb hx hu
    obtain ⟨q1, q2⟩ := scatter_foldl (K := K) ⟨[nb, nx, nu, 4], ix⟩ ⟨[nb, nx, nu], Lv⟩ (fun o => (List.range 4).map fun j => ix (o ++ [j]))
      (fun o => rfl) (allIdx [nb, nx, nu]) (fun _ => inf) [b, x, u, xp]
    split
    · rename_i h
      subst h
      refine q1 [b, x, u] (mem_allIdx3.2 ⟨_, _, _, rfl, hb, hx, hu⟩) (hI b x u hb hx hu) ?_
      intro o ho e
      obtain ⟨b', x', u', rfl, hb', hx', hu'⟩ := mem_allIdx3.1 ho
      rw [hI b' x' u' hb' hx' hu'] at e
      simp only [List.cons.injEq] at e
      obtain ⟨rfl, rfl, rfl, _⟩ := e
      rfl
    · rename_i h
      refine q2 ?_
      intro o ho e
      obtain ⟨b', x', u', rfl, hb', hx', hu'⟩ := mem_allIdx3.1 ho
      rw [hI b' x' u' hb' hx' hu'] at e
      simp only [List.cons.injEq] at e
      obtain ⟨rfl, rfl, rfl, e, _⟩ := e
      exact h e.symm

theorem initMost_prefix [LinearOrder K] [AddCommMonoid K] {T n m : ℕ} (inf : K) (vf : List ℕ → ℕ) (Ls : Tens K) :
    ∃ ix : List ℕ → ℕ, (∀ b x u, b < T → x < n → u < m → ix [b, x, u, 0] = b ∧ ix [b, x, u, 1] = x ∧ ix [b, x, u, 2] = u ∧
      ix [b, x, u, 3] = vf [b, x, u]) ∧
      tensFscInitMost inf ⟨[T, n, m], vf⟩ Ls = (Tens.scatterUpdate (Tens.const [T, n, m, n] inf) ⟨[T, n, m, 4], ix⟩ Ls >>=
        fun Vus => Vus.reduceMin (-2)) := by
  have r1 := reshape_range (N := T) (s := [T, 1, 1]) (by simp)
  have r2 := reshape_range (N := n) (s := [1, n, 1]) (by simp)
  have r3 := reshape_range (N := m) (s := [1, 1, m]) (by simp)
  have d0 : Tens.dim (⟨[T, n, m], vf⟩ : Tens ℕ) 0 = .ok T := rfl
  have d1 : Tens.dim (⟨[T, n, m], vf⟩ : Tens ℕ) 1 = .ok n := rfl
  have d2 : Tens.dim (⟨[T, n, m], vf⟩ : Tens ℕ) 2 = .ok m := rfl
  have t1 : ∀ w : List ℕ → ℕ, Tens.tile ⟨[T, 1, 1], w⟩ [1, n, m] = .ok ⟨[T, n, m],
      fun i => w (List.zipWith (· % ·) i [T, 1, 1])⟩ := fun w => by simp [Tens.tile]
  have t2 : ∀ w : List ℕ → ℕ, Tens.tile ⟨[1, n, 1], w⟩ [T, 1, m] = .ok ⟨[T, n, m],
      fun i => w (List.zipWith (· % ·) i [1, n, 1])⟩ := fun w => by simp [Tens.tile]
  have t3 : ∀ w : List ℕ → ℕ, Tens.tile ⟨[1, 1, m], w⟩ [T, n, 1] = .ok ⟨[T, n, m],
      fun i => w (List.zipWith (· % ·) i [1, 1, m])⟩ := fun w => by simp [Tens.tile]
  have ex : ∀ w : List ℕ → ℕ, Tens.expandDims ⟨[T, n, m], w⟩ (-1) = .ok ⟨[T, n, m, 1], fun i => w (i.eraseIdx 3)⟩ :=
    fun w => rfl
  simp only [tensFscInitMost, d0, d1, d2, r1, r2, r3, t1, t2, t3, ex, tens_bind]
  rw [concat_eq (ax := 3) (s := [T, n, m, 2]) (by rfl) (by rfl) (by rfl), tens_bind,
    concat_eq (ax := 3) (s := [T, n, m, 3]) (by rfl) (by rfl) (by rfl), tens_bind,
    concat_eq (ax := 3) (s := [T, n, m, 4]) (by rfl) (by rfl) (by rfl), tens_bind]
  refine ⟨_, ?_, rfl⟩
  intro b x u hb hx hu
  refine ⟨?_, ?_, ?_, ?_⟩
  · simp [ravel, Nat.mod_eq_of_lt, Nat.mod_one, hb]
  · simp [ravel, Nat.mod_eq_of_lt, Nat.mod_one, hx]
  · simp [ravel, Nat.mod_eq_of_lt, Nat.mod_one, hu]
  · simp

theorem initMost_is [LinearOrder K] [AddCommMonoid K] {n m : ℕ} [NeZero m] {inf : K} {fs : Tens ℕ} {Ls : Tens K}
    {st : List (FStage n m K)} (hf : fs.IsMs (st.map fun s x u => (s.f x u).val)) (hL : Ls.IsMs (st.map FStage.L)) :
    ∃ V, tensFscInitMost inf fs Ls = .ok V ∧ V.IsMs (st.map (tfStageElem inf)) := by
  obtain ⟨sf, vf⟩ := fs
  obtain ⟨sl, vl⟩ := Ls
  obtain ⟨h1, h2⟩ := hf
  obtain ⟨h3, h4⟩ := hL
  dsimp only at h1 h2 h3 h4
  rw [List.length_map] at h1 h3
  subst h1 h3
  obtain ⟨ix, hix, hp⟩ := initMost_prefix (T := st.length) (n := n) (m := m) inf vf ⟨[st.length, n, m], vl⟩
  rw [hp]
  obtain ⟨v, hv, hv'⟩ := scatter4 (nb := st.length) (nx := n) (nu := m) inf ix vl (fun b x u => vf [b, x, u])
    (fun b x u hb hx hu => by
      obtain ⟨q0, q1, q2, q3⟩ := hix b x u hb hx hu
      refine ⟨q0, q1, q2, q3, ?_⟩
      have e := h2 b (by simpa using hb) ⟨x, hx⟩ ⟨u, hu⟩
      simp only [List.getElem_map] at e
      rw [e]
      exact Fin.isLt _)
  rw [hv, tens_bind, Tens.reduceMin_eq (n := m) (a := 2) rfl rfl]
  refine ⟨_, rfl, by simp, ?_⟩
  intro k hk x y
  have hk' : k < st.length := by simpa using hk
  simp only [List.getElem_map, tfStageElem]
  refine congrArg min1 ?_
  funext u
  show v [k, x, u, y] = _
  rw [hv' k x u y hk' x.2 u.2]
  have e := h2 k (by simpa using hk') x u
  have e' := h4 k (by simpa using hk') x u
  simp only [List.getElem_map] at e e'
  rw [e, e', Function.update_apply]
  simp only [Fin.ext_iff]

theorem initMost_index [LinearOrder K] [AddCommMonoid K] {T n m : ℕ} (inf : K) {fs : Tens ℕ} {Ls : Tens K} (hf : fs.shape = [T, n, m])
    (hL : Ls.shape = [T, n, m]) {k x u : ℕ} (hk : k < T) (hx : x < n) (hu : u < m) (h : n ≤ fs.val [k, x, u]) :
    tensFscInitMost inf fs Ls = .error .indexError := by
  obtain ⟨sf, vf⟩ := fs
  obtain ⟨sl, vl⟩ := Ls
  dsimp only at hf hL h
  subst hf hL
  obtain ⟨ix, hix, hp⟩ := initMost_prefix (T := T) (n := n) (m := m) inf vf ⟨[T, n, m], vl⟩
  rw [hp]
  have hall : ¬ ((allIdx [T, n, m]).all fun o => decide (((List.range 4).map fun j => ix (o ++ [j])) ∈ allIdx [T, n, m, n])) = true := by
    rw [List.all_eq_true]
    intro hc
    have hc := of_decide_eq_true (hc [k, x, u] (mem_allIdx3.2 ⟨_, _, _, rfl, hk, hx, hu⟩))
    obtain ⟨a, b, c, d, e, _, _, _, hd⟩ := mem_allIdx4.1 hc
    have hr : List.range 4 = [0, 1, 2, 3] := rfl
    simp only [hr, List.map_cons, List.map_nil, List.cons_append, List.nil_append, List.cons.injEq] at e
    have e3 := (hix k x u hk hx hu).2.2.2
    omega
  have : Tens.scatterUpdate (Tens.const [T, n, m, n] inf) ⟨[T, n, m, 4], ix⟩ ⟨[T, n, m], vl⟩ = .error .indexError :=
    (if_pos (⟨rfl, rfl⟩ : 4 = 4 ∧ [T, n, m] = [T, n, m])).trans (if_neg hall)
  rw [this]
  rfl

section Batch
variable {β : Type} {s : List ℕ} {D : (List ℕ → K) → β → Prop}

/-- A batch of items of shape `s`; `D` says which item the entries are. -/
def Tens.IsB (s : List ℕ) (D : (List ℕ → K) → β → Prop) (t : Tens K) (l : List β) : Prop :=
  t.shape = l.length :: s ∧ ∀ (k : ℕ) (h : k < l.length), D (fun i => t.val (k :: i)) l[k]

theorem Tens.IsB.concat {a b : Tens K} {la lb : List β} (ha : a.IsB s D la) (hb : b.IsB s D lb) :
    ∃ c, a.concat b 0 = .ok c ∧ c.IsB s D (la ++ lb) := by
  obtain ⟨sa, va⟩ := a
  obtain ⟨sb, vb⟩ := b
  obtain ⟨h1, h2⟩ := ha
  obtain ⟨h3, h4⟩ := hb
  dsimp only at h1 h2 h3 h4
  subst h1 h3
  have hax : tfAxis (la.length :: s).length 0 = .ok 0 := tfAxis_nat (a := 0) (by simp)
  rw [concat_eq (ax := 0) (s := (la.length + lb.length) :: s) hax (by rfl) (by rfl)]
  refine ⟨_, rfl, by simp, ?_⟩
  intro k hk
  by_cases h : k < la.length
  · have e := h2 k h
    simpa [h, List.getElem_append_left] using e
  · have hk' : k - la.length < lb.length := by simp at hk; omega
    have e := h4 (k - la.length) hk'
    simpa [h, List.getElem_append_right (Nat.not_lt.1 h)] using e

theorem Tens.IsB.reverse {a : Tens K} {la : List β} (ha : a.IsB s D la) : ∃ c, a.reverse = .ok c ∧ c.IsB s D la.reverse := by
  obtain ⟨sa, va⟩ := a
  obtain ⟨h1, h2⟩ := ha
  dsimp only at h1 h2
  subst h1
  refine ⟨_, rfl, by simp, ?_⟩
  intro k hk
  rw [List.length_reverse] at hk
  have e := h2 (la.length - 1 - k) (by omega)
  simpa using e

theorem Tens.IsB.tail {a : Tens K} {la : List β} (ha : a.IsB s D la) : ∃ c, a.tail = .ok c ∧ c.IsB s D la.tail := by
  obtain ⟨sa, va⟩ := a
  obtain ⟨h1, h2⟩ := ha
  dsimp only at h1 h2
  subst h1
  refine ⟨_, rfl, by simp, ?_⟩
  intro k hk
  rw [List.length_tail] at hk
  have e := h2 (k + 1) (by omega)
  simpa using e

theorem Tens.IsB.init {a : Tens K} {la : List β} (ha : a.IsB s D la) : ∃ c, a.init = .ok c ∧ c.IsB s D la.dropLast := by
  obtain ⟨sa, va⟩ := a
  obtain ⟨h1, h2⟩ := ha
  dsimp only at h1 h2
  subst h1
  refine ⟨_, rfl, by simp, ?_⟩
  intro k hk
  rw [List.length_dropLast] at hk
  have e := h2 k (by omega)
  simpa using e

theorem Tens.IsB.slices {t : Tens K} {l : List β} (h : t.IsB s D l) :
    ∃ ts, t.slices = .ok ts ∧ List.Forall₂ (fun a b => a.IsB s D [b]) ts l := by
  obtain ⟨sa, va⟩ := t
  obtain ⟨h1, h2⟩ := h
  dsimp only at h1 h2
  subst h1
  refine ⟨_, rfl, ?_⟩
  rw [List.forall₂_iff_get]
  refine ⟨by simp, fun k hk hk' => ?_⟩
  refine ⟨by simp, fun j hj => ?_⟩
  have : j = 0 := by simp at hj; omega
  subst this
  have e := h2 k hk'
  simpa using e

theorem Tens.IsB.joinAll {ts : List (Tens K)} {l : List β} (h : List.Forall₂ (fun a b => a.IsB s D [b]) ts l) (hne : l ≠ []) :
    ∃ t, Tens.joinAll ts = .ok t ∧ t.IsB s D l := by
  cases h with
  | nil => exact absurd rfl hne
  | @cons a b ts l ha h =>
    have key : ∀ (ts : List (Tens K)) (l : List β), List.Forall₂ (fun a b => a.IsB s D [b]) ts l → ∀ (a : Tens K) (la : List β),
        a.IsB s D la → ∃ t, ts.foldlM (fun a b => a.concat b 0) a = Except.ok t ∧ t.IsB s D (la ++ l) := by
      intro ts l h
      induction h with
      | nil => intro a la ha; exact ⟨a, rfl, by simpa using ha⟩
      | @cons t b ts l hb h ih =>
        intro a la ha
        obtain ⟨c, hc, hc'⟩ := ha.concat hb
        obtain ⟨t, ht, ht'⟩ := ih c _ hc'
        refine ⟨t, ?_, by simpa using ht'⟩
        rw [List.foldlM_cons, hc]
        exact ht
    exact key ts l h a [b] ha

theorem Tens.IsB.scanAssoc {scan : AScan} (hs : ∀ α, IsAssocScan (scan α)) {fn : Tens K → Tens K → Py (Tens K)} {g : β → β → β}
    (hop : ∀ a a' b b', a.IsB s D [b] → a'.IsB s D [b'] → ∃ c, fn a a' = .ok c ∧ c.IsB s D [g b b'])
    (hassoc : ∀ x y z, g (g x y) z = g x (g y z)) {t : Tens K} {l : List β} (h : t.IsB s D l) (hne : l ≠ []) :
    ∃ r lr, t.scanAssoc scan fn = .ok r ∧ scan _ (fun x y => .ok (g x y)) l = .ok lr ∧ r.IsB s D lr ∧ lr.length = l.length := by
  obtain ⟨ts, h1, h2⟩ := h.slices
  have hts : ts ≠ [] := by rintro rfl; cases h2; exact hne rfl
  obtain ⟨ra, rb, h3, h4, h5, h6⟩ := scan_transfer (hs _) (hs _) (fun (a : Tens K) b => a.IsB s D [b]) hop hassoc h2 hts
  obtain ⟨r, h7, h8⟩ := Tens.IsB.joinAll h5 (by intro e; rw [e] at h6; exact hne (List.length_eq_zero_iff.1 h6.symm))
  refine ⟨r, rb, ?_, h4, h8, h6⟩
  rw [Tens.scanAssoc, h1, tens_bind, h3, tens_bind, h7]

end Batch

variable {n m : ℕ}

theorem Tens.isMs_iff {t : Tens K} {l : List (Fin n → Fin m → K)} :
    t.IsMs l ↔ t.IsB [n, m] (fun f A => ∀ x y, f [x.val, y.val] = A x y) l := Iff.rfl

theorem Tens.isVs_iff {t : Tens K} {l : List (Fin n → K)} : t.IsVs l ↔ t.IsB [n] (fun f A => ∀ x, f [x.val] = A x) l := Iff.rfl

theorem Tens.is1_iff {t : Tens K} {l : List K} : t.Is1 l ↔ t.IsB [] (fun f A => f [] = A) l := Iff.rfl

theorem Tens.IsM.batch {t : Tens K} {A : Fin n → Fin m → K} (h : t.IsM A) : ∃ c, t.expandDims 0 = .ok c ∧ c.IsMs [A] := by
  obtain ⟨sa, va⟩ := t
  obtain ⟨h1, h2⟩ := h
  dsimp only at h1 h2
  subst h1
  refine ⟨_, rfl, rfl, fun k hk x y => ?_⟩
  have : k = 0 := by simp at hk; omega
  subst this
  exact h2 x y

theorem Tens.IsV.batch {t : Tens K} {A : Fin n → K} (h : t.IsV A) : ∃ c, t.expandDims 0 = .ok c ∧ c.IsVs [A] := by
  obtain ⟨sa, va⟩ := t
  obtain ⟨h1, h2⟩ := h
  dsimp only at h1 h2
  subst h1
  refine ⟨_, rfl, rfl, fun k hk x => ?_⟩
  have : k = 0 := by simp at hk; omega
  subst this
  exact h2 x

/-- `t[..., 0]`. -/
theorem Tens.IsMs.selectLast {t : Tens K} [NeZero m] {l : List (Fin n → Fin m → K)} (h : t.IsMs l) :
    ∃ c, t.select (-1) 0 = .ok c ∧ c.IsVs (l.map fun e x => e x 0) := by
  obtain ⟨sa, va⟩ := t
  obtain ⟨h1, h2⟩ := h
  dsimp only at h1 h2
  subst h1
  have h0 : 0 < m := Nat.pos_of_ne_zero (NeZero.ne m)
  refine ⟨⟨[l.length, n], fun i => va (i.insertIdx 2 0)⟩, ?_, by simp, fun k hk x => ?_⟩
  · exact if_pos h0
  · rw [List.length_map] at hk
    simpa using h2 k hk x 0

/-- `t[:, 0, :]`. -/
theorem Tens.IsMs.selectMid {t : Tens K} [NeZero n] {l : List (Fin n → Fin m → K)} (h : t.IsMs l) :
    ∃ c, t.select 1 0 = .ok c ∧ c.IsVs (l.map fun e => e 0) := by
  obtain ⟨sa, va⟩ := t
  obtain ⟨h1, h2⟩ := h
  dsimp only at h1 h2
  subst h1
  have h0 : 0 < n := Nat.pos_of_ne_zero (NeZero.ne n)
  refine ⟨⟨[l.length, m], fun i => va (i.insertIdx 1 0)⟩, ?_, by simp, fun k hk x => ?_⟩
  · exact if_pos h0
  · rw [List.length_map] at hk
    simpa using h2 k hk 0 x

/-- `t[..., 0]`. -/
theorem Tens.IsVs.selectLast {t : Tens K} [NeZero m] {l : List (Fin m → K)} (h : t.IsVs l) :
    ∃ c, t.select (-1) 0 = .ok c ∧ c.Is1 (l.map fun e => e 0) := by
  obtain ⟨sa, va⟩ := t
  obtain ⟨h1, h2⟩ := h
  dsimp only at h1 h2
  subst h1
  have h0 : 0 < m := Nat.pos_of_ne_zero (NeZero.ne m)
  refine ⟨⟨[l.length], fun i => va (i.insertIdx 1 0)⟩, ?_, by simp, fun k hk => ?_⟩
  · exact if_pos h0
  · rw [List.length_map] at hk
    simpa using h2 k hk 0

/-- `t[0, ...]`. -/
theorem Tens.IsMs.selectFirst {t : Tens K} {l : List (Fin n → Fin m → K)} (h : t.IsMs l) {A : Fin n → Fin m → K} {l' : List (Fin n → Fin m → K)}
    (hl : l = A :: l') : ∃ c, t.select 0 0 = .ok c ∧ c.IsM A := by
  subst hl
  obtain ⟨sa, va⟩ := t
  obtain ⟨h1, h2⟩ := h
  dsimp only at h1 h2
  subst h1
  refine ⟨⟨[n, m], fun i => va (i.insertIdx 0 0)⟩, ?_, by simp, fun x y => ?_⟩
  · have h0 : 0 < (A :: l').length := by simp
    simp [Tens.select, tens_bind, tfAxis, tens_pure]
  · exact h2 0 (by simp) x y

theorem gatherNd_eq {t : Tens K} {ix : Tens ℕ} {b k : ℕ} {outer : List ℕ} (hs : ix.shape = outer ++ [k]) (h1 : b ≤ outer.length)
    (h2 : b + k ≤ t.shape.length) (h3 : outer.take b = t.shape.take b)
    (h4 : ∀ o ∈ allIdx outer, o.take b ++ ((List.range k).map fun j => ix.val (o ++ [j])) ∈ allIdx (t.shape.take (b + k))) :
    t.gatherNd ix b = .ok ⟨outer ++ t.shape.drop (b + k), fun i => t.val ((i.take outer.length).take b ++
      ((List.range k).map fun j => ix.val (i.take outer.length ++ [j])) ++ i.drop outer.length)⟩ := by
  have e1 : ix.shape.dropLast = outer := by rw [hs]; simp
  have e2 : ix.shape.getLastD 0 = k := by rw [hs]; simp
  have e3 : ((allIdx outer).all fun o => decide (o.take b ++ ((List.range k).map fun j => ix.val (o ++ [j])) ∈
      allIdx (t.shape.take (b + k)))) = true := by
    rw [List.all_eq_true]
    intro o ho
    exact decide_eq_true (h4 o ho)
  simp only [Tens.gatherNd, e1, e2]
  rw [if_pos ⟨h1, h2, h3⟩, if_pos e3]

theorem Tens.IsMs.argmin (am : AArgmin K) [NeZero m] {t : Tens K} {l : List (Fin n → Fin m → K)} (h : t.IsMs l) :
    ∃ c, t.argmin am (-1) = .ok c ∧ c.IsVs (l.map fun A x => (am m (A x)).val) := by
  obtain ⟨sa, va⟩ := t
  obtain ⟨h1, h2⟩ := h
  dsimp only at h1 h2
  subst h1
  rw [Tens.argmin_eq am (a := 2) (n := m) (by rfl) (by rfl)]
  refine ⟨_, rfl, by simp, fun k hk x => ?_⟩
  rw [List.length_map] at hk
  simp only [List.getElem_map]
  have e : (fun j : Fin m => va ([k, x.val].insertIdx 2 j.val)) = l[k] x := by
    funext j
    exact h2 k hk x j
  rw [← e]

theorem Tens.IsVs.argmin (am : AArgmin K) [NeZero n] {t : Tens K} {l : List (Fin n → K)} (h : t.IsVs l) :
    ∃ c, t.argmin am (-1) = .ok c ∧ c.Is1 (l.map fun A => (am n A).val) := by
  obtain ⟨sa, va⟩ := t
  obtain ⟨h1, h2⟩ := h
  dsimp only at h1 h2
  subst h1
  rw [Tens.argmin_eq am (a := 1) (n := n) (by rfl) (by rfl)]
  refine ⟨_, rfl, by simp, fun k hk => ?_⟩
  rw [List.length_map] at hk
  simp only [List.getElem_map]
  have e : (fun j : Fin n => va ([k].insertIdx 1 j.val)) = l[k] := by
    funext j
    exact h2 k hk j
  rw [← e]

theorem Tens.IsMs.add [Add K] {a b : Tens K} {la lb : List (Fin n → Fin m → K)} (ha : a.IsMs la) (hb : b.IsMs lb)
    (hl : la.length = lb.length) : ∃ c, a.bin (· + ·) b = .ok c ∧ c.IsMs (List.zipWith (fun A B x y => A x y + B x y) la lb) := by
  obtain ⟨sa, va⟩ := a
  obtain ⟨sb, vb⟩ := b
  obtain ⟨h1, h2⟩ := ha
  obtain ⟨h3, h4⟩ := hb
  dsimp only at h1 h2 h3 h4
  rw [← hl] at h3
  subst h1 h3
  obtain ⟨v, e, hv⟩ := bin_same3 (f := fun x y : K => x + y) (p := la.length) (n := n) (m := m) va vb
  refine ⟨_, e, by simp [hl], fun k hk x y => ?_⟩
  have hk' : k < la.length := by simp at hk; omega
  simp only [List.getElem_zipWith]
  rw [← h2 k hk', ← h4 k (by omega)]
  exact hv k x y hk' x.2 y.2

theorem Tens.IsVs.add [Add K] {a b : Tens K} {la lb : List (Fin n → K)} (ha : a.IsVs la) (hb : b.IsVs lb)
    (hl : la.length = lb.length) : ∃ c, a.bin (· + ·) b = .ok c ∧ c.IsVs (List.zipWith (fun A B x => A x + B x) la lb) := by
  obtain ⟨sa, va⟩ := a
  obtain ⟨sb, vb⟩ := b
  obtain ⟨h1, h2⟩ := ha
  obtain ⟨h3, h4⟩ := hb
  dsimp only at h1 h2 h3 h4
  rw [← hl] at h3
  subst h1 h3
  obtain ⟨v, e, hv⟩ := bin_same2 (f := fun x y : K => x + y) (n := la.length) (m := n) va vb
  refine ⟨_, e, by simp [hl], fun k hk x => ?_⟩
  have hk' : k < la.length := by simp at hk; omega
  simp only [List.getElem_zipWith]
  rw [← h2 k hk', ← h4 k (by omega)]
  exact hv k x hk' x.2

/-- `tf.gather_nd(Vs, tf.expand_dims(fs, -1), batch_dims=1)`. -/
theorem gather_step {p : ℕ} {V : Tens K} {fs : Tens ℕ} {lV : List (Fin p → K)} {lf : List (Fin n → Fin m → Fin p)} (hV : V.IsVs lV)
    (hf : fs.IsMs (lf.map fun f x u => (f x u).val)) (hl : lf.length = lV.length) :
    ∃ ix c, fs.expandDims (-1) = .ok ix ∧ V.gatherNd ix 1 = .ok c ∧ c.IsMs (List.zipWith (fun f v x u => v (f x u)) lf lV) := by
  obtain ⟨sa, va⟩ := V
  obtain ⟨sb, vb⟩ := fs
  obtain ⟨h1, h2⟩ := hV
  obtain ⟨h3, h4⟩ := hf
  dsimp only at h1 h2 h3 h4
  rw [List.length_map] at h3
  subst h1 h3
  have hv : ∀ k (hk : k < lf.length) (x : Fin n) (u : Fin m), vb [k, x, u] = (lf[k] x u).val := fun k hk x u => by
    exact (h4 k (by simpa using hk) x u).trans (by simp only [List.getElem_map])
  have hr : List.range 1 = [0] := rfl
  refine ⟨_, _, rfl, gatherNd_eq (outer := [lf.length, n, m]) (k := 1) (by rfl) (by simp) (by simp) (by simp [hl]) ?_, ?_⟩
  · intro o ho
    obtain ⟨k, x, u, rfl, hk, hx, hu⟩ := mem_allIdx3.1 ho
    refine mem_allIdx2.2 ⟨k, vb [k, x, u], by simp [hr], by omega, ?_⟩
    rw [hv k hk ⟨x, hx⟩ ⟨u, hu⟩]
    exact Fin.isLt _
  · refine ⟨by simp [hl], fun k hk x u => ?_⟩
    have hk' : k < lf.length := by simp at hk; omega
    simp only [List.getElem_zipWith]
    rw [← h2 k (by omega) (lf[k] x u), ← hv k hk' x u]
    simp [hr]

/-- `tf.gather(us, ix, axis=-1, batch_dims=1)` for a vector of indices in each batch. -/
theorem gather_comb {p q : ℕ} {t : Tens ℕ} {ix : Tens ℕ} {lt : List (Fin p → Fin q)} {li : List (Fin n → Fin p)}
    (ht : t.IsVs (lt.map fun f x => (f x).val)) (hi : ix.IsVs (li.map fun f x => (f x).val)) (hl : li.length = lt.length) :
    ∃ c, t.gather ix 1 = .ok c ∧ c.IsVs ((List.zipWith (fun f v x => v (f x)) li lt).map fun f x => (f x).val) := by
  obtain ⟨sa, va⟩ := t
  obtain ⟨sb, vb⟩ := ix
  obtain ⟨h1, h2⟩ := ht
  obtain ⟨h3, h4⟩ := hi
  dsimp only at h1 h2 h3 h4
  rw [List.length_map] at h1 h3
  subst h1 h3
  have hv : ∀ k (hk : k < li.length) (x : Fin n), vb [k, x] = (li[k] x).val := fun k hk x => by
    exact (h4 k (by simpa using hk) x).trans (by simp only [List.getElem_map])
  have hw : ∀ k (hk : k < lt.length) (x : Fin p), va [k, x] = (lt[k] x).val := fun k hk x => by
    exact (h2 k (by simpa using hk) x).trans (by simp only [List.getElem_map])
  have hr : List.range 1 = [0] := rfl
  have ex : Tens.expandDims ⟨[li.length, n], vb⟩ (-1) = .ok ⟨[li.length, n, 1], fun i => vb (i.eraseIdx 2)⟩ := rfl
  rw [Tens.gather, ex, tens_bind]
  refine ⟨_, gatherNd_eq (outer := [li.length, n]) (k := 1) (by rfl) (by simp) (by simp) (by simp [hl]) ?_, ?_⟩
  · intro o ho
    obtain ⟨k, x, rfl, hk, hx⟩ := mem_allIdx2.1 ho
    refine mem_allIdx2.2 ⟨k, vb [k, x], by simp [hr], by omega, ?_⟩
    rw [hv k hk ⟨x, hx⟩]
    exact Fin.isLt _
  · refine ⟨by simp [hl], fun k hk x => ?_⟩
    have hk' : k < li.length := by simp at hk; omega
    simp only [List.getElem_map, List.getElem_zipWith]
    rw [← hw k (by omega) (li[k] x), ← hv k hk' x]
    simp [hr]

/-- `tf.gather(us, min_xs[:-1], axis=-1, batch_dims=1)`. -/
theorem gather_one {p q : ℕ} {t : Tens ℕ} {ix : Tens ℕ} {lt : List (Fin p → Fin q)} {li : List (Fin p)}
    (ht : t.IsVs (lt.map fun f x => (f x).val)) (hi : ix.Is1 (li.map Fin.val)) (hl : li.length = lt.length) :
    ∃ c, t.gather ix 1 = .ok c ∧ c.Is1 ((List.zipWith (fun v x => v x) lt li).map Fin.val) := by
  obtain ⟨sa, va⟩ := t
  obtain ⟨sb, vb⟩ := ix
  obtain ⟨h1, h2⟩ := ht
  obtain ⟨h3, h4⟩ := hi
  dsimp only at h1 h2 h3 h4
  rw [List.length_map] at h1 h3
  subst h1 h3
  have hv : ∀ k (hk : k < li.length), vb [k] = (li[k]).val := fun k hk => by
    exact (h4 k (by simpa using hk)).trans (by simp only [List.getElem_map])
  have hw : ∀ k (hk : k < lt.length) (x : Fin p), va [k, x] = (lt[k] x).val := fun k hk x => by
    exact (h2 k (by simpa using hk) x).trans (by simp only [List.getElem_map])
  have hr : List.range 1 = [0] := rfl
  have ex : Tens.expandDims ⟨[li.length], vb⟩ (-1) = .ok ⟨[li.length, 1], fun i => vb (i.eraseIdx 1)⟩ := rfl
  rw [Tens.gather, ex, tens_bind]
  refine ⟨_, gatherNd_eq (outer := [li.length]) (k := 1) (by rfl) (by simp) (by simp) (by simp [hl]) ?_, ?_⟩
  · intro o ho
    obtain ⟨k, rfl, hk⟩ := mem_allIdx1.1 ho
    refine mem_allIdx2.2 ⟨k, vb [k], by simp [hr], by omega, ?_⟩
    rw [hv k hk]
    exact Fin.isLt _
  · refine ⟨by simp [hl], fun k hk => ?_⟩
    have hk' : k < li.length := by simp at hk; omega
    simp only [List.getElem_map, List.getElem_zipWith]
    rw [← hw k (by omega) (li[k]), ← hv k hk']
    simp [hr]

end Verif
