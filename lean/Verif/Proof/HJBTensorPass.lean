import Verif.Proof.HJBTensor
import Verif.Proof.HJBBlock
import Verif.Proof.TensorLinear

/-!
The tensor code of the backward passes of `hjb_grid_1d_tf.py` computes the functional model.
-/

namespace Verif

variable {K : Type}

/-- A reversed scan with a body that does not fail. -/
theorem scanRev_iter {β : Type} (body : β → β) (V : β) (l : List ℕ) :
    tfScanRev (fun d (_ : ℕ) => (.ok (body d) : Py β)) V l =
      .ok ((List.range l.length).map (fun k => body^[l.length - k] V), body^[l.length] V) := by
  induction l with
  | nil => rfl
  | cons a l ih =>
    rw [tfScanRev, ih, tens_bind, tens_bind, tens_pure]
    have e : body (body^[l.length] V) = body^[l.length + 1] V := (Function.iterate_succ_apply' body _ V).symm
    rw [List.length_cons, List.range_succ_eq_map, List.map_cons, List.map_map]
    refine congrArg Except.ok (Prod.ext ?_ e)
    refine List.cons_eq_cons.2 ⟨e, List.map_congr_left fun k _ => ?_⟩
    simp [Nat.succ_sub_succ_eq_sub]

theorem stack_isMs {n m : ℕ} {ts : List (Tens K)} {l : List (Fin n → Fin m → K)} (h : List.Forall₂ (fun a b => a.IsM b) ts l) (d : List ℕ → K) :
    ∃ t, Tens.stack [n, m] d ts = .ok t ∧ t.IsMs l := by
  have hl := h.length_eq
  have hall : (ts.all fun t => decide (t.shape = [n, m])) = true := by
    rw [List.all_eq_true]
    intro t ht
    obtain ⟨i, hi, rfl⟩ := List.getElem_of_mem ht
    exact decide_eq_true (h.get hi (by omega)).1
  refine ⟨_, if_pos hall, by simp [hl], fun k hk x y => ?_⟩
  have hk' : k < ts.length := by omega
  have e := (h.get hk' hk).2 x y
  simpa [List.getElem?_eq_getElem hk'] using e

/-- `VT[:, 0]`. -/
theorem Tens.IsM.selectCol {n m : ℕ} [NeZero m] {t : Tens K} {A : Fin n → Fin m → K} (h : t.IsM A) :
    ∃ c, t.select 1 0 = .ok c ∧ c.IsV fun x => A x 0 := by
  obtain ⟨sa, va⟩ := t
  obtain ⟨h1, h2⟩ := h
  dsimp only at h1 h2
  subst h1
  exact ⟨⟨[n], fun i => va (i.insertIdx 1 0)⟩, if_pos (Nat.pos_of_ne_zero (NeZero.ne m)), rfl, fun x => h2 x 0⟩

/-- A bracketing of related items is related to a bracketing of the others. -/
theorem paren_transfer {α β : Type} (R : α → β → Prop) {opA : α → α → Py α} {g : β → β → β}
    (hop : ∀ a a' b b', R a b → R a' b' → ∃ c, opA a a' = .ok c ∧ R c (g b b')) {l : List α} {v : α} (h : Paren opA l v) :
    ∀ {l' : List β}, List.Forall₂ R l l' → ∃ w, R v w ∧ Paren (fun x y => .ok (g x y)) l' w := by
  induction h with
  | single x => intro l' h'; cases h' with | cons h1 h2 => cases h2; exact ⟨_, h1, .single _⟩
  | @node l r x y z h1 h2 ho ih1 ih2 =>
    intro l' h'
    obtain ⟨l1, l2, e1, e2, rfl⟩ : ∃ l1 l2, List.Forall₂ R l l1 ∧ List.Forall₂ R r l2 ∧ l' = l1 ++ l2 := by
      have ht := List.forall₂_take l.length h'
      have hd := List.forall₂_drop l.length h'
      rw [List.take_left] at ht
      rw [List.drop_left] at hd
      exact ⟨_, _, ht, hd, (List.take_append_drop _ _).symm⟩
    obtain ⟨w1, r1, p1⟩ := ih1 e1
    obtain ⟨w2, r2, p2⟩ := ih2 e2
    obtain ⟨c, hc, hr⟩ := hop _ _ _ _ r1 r2
    rw [ho] at hc; cases hc
    exact ⟨_, hr, .node p1 p2 rfl⟩

section Assoc
variable [Field K] [LinearOrder K] {n : ℕ} [NeZero n]

omit [Field K] [LinearOrder K] [NeZero n] in
theorem hjbVT_rep {LT : Tens K → Py (Tens K)} {lt : K → K} (hLT : Pointwise1 LT lt) {tg : Tens K} {g : Fin n → K} (hg : tg.IsV g) :
    ∃ t, tensHjbVT LT tg = .ok t ∧ t.IsM fun (x _ : Fin n) => ((lt (g x) : K) : WithBot K) := by
  obtain ⟨s, v⟩ := tg
  obtain ⟨h1, h2⟩ := hg
  dsimp only at h1 h2
  subst h1
  obtain ⟨r, hr, hs, hv⟩ := hLT ⟨[n, n], fun i => v [i.getD 0 0]⟩
  refine ⟨_, bstep rfl (bstep hr rfl), hs, fun x y => ?_⟩
  refine congrArg (fun z : K => (z : WithBot K)) ((hv _ (mem_allIdx2.2 ⟨x, y, rfl, x.isLt, y.isLt⟩)).trans ?_)
  exact congrArg lt (h2 x)

variable [IsStrictOrderedRing K]

theorem assocBody_rep (am : AArgmin (WithBot K)) (hn : 2 ≤ n) {tb tV : Tens (WithBot K)} {B V : Fin n → Fin n → WithBot K} (hB : tb.IsMs [B])
    (hV : tV.IsM V) : ∃ c, tensAssocBody am tb tV = .ok c ∧ c.IsM (combineVInterpTF (am n) B V) := by
  obtain ⟨a, e1, h1⟩ := hV.batch
  obtain ⟨b, e2, h2⟩ := combineInterp_rep am hn hB h1 rfl
  obtain ⟨c, e3, h3⟩ := h2.selectFirst (A := combineVInterpTF (am n) B V) (l' := []) rfl
  exact ⟨c, bstep e1 (bstep e2 e3), h3⟩

theorem seqAssoc_rep (am : AArgmin (WithBot K)) (hn : 2 ≤ n) (M : HJB n K) {LT : Tens K → Py (Tens K)} (hLT : Pointwise1 LT M.LT) {tg : Tens K}
    (hg : tg.IsV M.grid) {tB : Tens (WithBot K)} {B : Fin n → Fin n → WithBot K} (hB : tB.IsM B) :
    ∃ t, tensSeqBwPassAssoc am LT M.blocks tg tB = .ok t ∧ t.IsVs (seqBwPassAssocTF (am n) M B) := by
  obtain ⟨tb, e1, h1⟩ := hB.batch
  obtain ⟨tV, e2, h2⟩ := hjbVT_rep hLT hg
  obtain ⟨r, r', e3, e4, h4, -⟩ := scanRev_transfer (bA := fun carry (_ : ℕ) => tensAssocBody am tb carry)
    (bB := fun d (_ : ℕ) => (.ok (combineVInterpTF (am n) B d) : Py _)) (fun a c => a = c) (fun a b => a.IsM b)
    (fun b d _ _ hS _ => by
      obtain ⟨c, e, h⟩ := assocBody_rep am hn h1 hS
      exact ⟨c, _, e, rfl, h⟩) (List.forall₂_same.2 fun x _ => rfl : List.Forall₂ _ (List.range M.blocks) (List.range M.blocks)) h2
  rw [scanRev_iter] at e4
  cases e4
  obtain ⟨tS, e5, h5⟩ := stack_isMs h4 tV.val
  obtain ⟨tc, e6, h6⟩ := h2.selectCol
  obtain ⟨ts, e7, h7⟩ := h5.selectLast
  obtain ⟨tc', e8, h8⟩ := h6.batch
  obtain ⟨t, e9, h9⟩ := Tens.IsB.concat (Tens.isVs_iff.1 h7) (Tens.isVs_iff.1 h8)
  have e7' : tS.select 2 0 = .ok ts := by
    rw [← e7]
    unfold Tens.select
    rw [h5.1]
    rfl
  refine ⟨t, bstep e1 (bstep e2 (bstep e3 (bstep ?_ (bstep e6 (bstep e7' (bstep e8 e9)))))), ?_⟩
  · rw [h2.1]; exact e5
  · rw [Tens.isVs_iff]
    rw [seqBwPassAssocTF, tfRangeScanRev_eq]
    have hM : M.VT = fun x _ => ((M.LT (M.grid x) : K) : WithBot K) := rfl
    rw [hM]
    simpa using h9

theorem parBw_rep {scan : AScan} (hs : ∀ α, IsAssocScan (scan α)) (am : AArgmin (WithBot K)) (hn : 2 ≤ n) (M : HJB n K)
    {LT : Tens K → Py (Tens K)} (hLT : Pointwise1 LT M.LT) {tg : Tens K} (hg : tg.IsV M.grid) {tB : Tens (WithBot K)}
    {B : Fin n → Fin n → WithBot K} (hB : tB.IsM B) :
    ∃ (t : Tens (WithBot K)) (Ws : List (Fin n → Fin n → WithBot K)), tensParBwPass scan am LT M.blocks tg tB = .ok t ∧ t.IsVs (Ws.map fun (W : Fin n → Fin n → WithBot K) x => W x 0) ∧
      Ws.length = M.blocks + 1 ∧ ∀ (k : ℕ) (hk : k < Ws.length),
        Paren (fun x y => .ok (combineVInterpTF (am n) x y)) (List.replicate (M.blocks - k) B ++ [M.VT]) Ws[k] := by
  obtain ⟨tV, e2, h2⟩ := hjbVT_rep hLT hg
  obtain ⟨tV', e3, h3⟩ := h2.batch
  obtain ⟨sB, vB⟩ := tB
  obtain ⟨hs1, hs2⟩ := hB
  dsimp only at hs1 hs2
  subst hs1
  have e0 : Tens.expandDims ⟨[n, n], vB⟩ 0 = .ok ⟨[1, n, n], fun i => vB (i.eraseIdx 0)⟩ := rfl
  have hbc : (List.zipWith (fun m n => decide (m = n ∨ m = 1)) (padShape [M.blocks, n, n].length [1, n, n]) [M.blocks, n, n]).all id = true := by
    simp [padShape]
  have e1 : Tens.broadcastTo ⟨[1, n, n], fun i => vB (i.eraseIdx 0)⟩ [M.blocks, n, n] =
      .ok ⟨[M.blocks, n, n], fun i => vB ((bcastIdx [1, n, n] i).eraseIdx 0)⟩ := if_pos ⟨by simp, hbc⟩
  have h1 : Tens.IsMs (⟨[M.blocks, n, n], fun i => vB ((bcastIdx [1, n, n] i).eraseIdx 0)⟩ : Tens (WithBot K)) (List.replicate M.blocks B) := by
    refine ⟨by simp, fun k hk x y => ?_⟩
    rw [List.getElem_replicate, ← hs2 x y]
    simp [bcastIdx, padShape, bc_lt]
  obtain ⟨te, e4, h4⟩ := Tens.IsB.concat (Tens.isMs_iff.1 h1) (Tens.isMs_iff.1 h3)
  obtain ⟨tr, e5, h5⟩ := h4.reverse
  obtain ⟨ts, e6, h6⟩ := h5.slices
  obtain ⟨ts', rfl⟩ : ∃ ts', ts = ts'.reverse := ⟨ts.reverse, (List.reverse_reverse ts).symm⟩
  have h6' : List.Forall₂ (fun (a : Tens (WithBot K)) b => a.IsMs [b]) ts' (List.replicate M.blocks B ++ [M.VT]) := by
    have := List.rel_reverse h6
    rwa [List.reverse_reverse, List.reverse_reverse] at this
  have hlen : ts'.length = M.blocks + 1 := by rw [h6'.length_eq]; simp
  have hop : ∀ (a a' : Tens (WithBot K)) (b b' : Fin n → Fin n → WithBot K), a.IsMs [b] → a'.IsMs [b'] →
      ∃ c, tensHjbCombineInterp am a a' = .ok c ∧ c.IsMs [combineVInterpTF (am n) b b'] :=
    fun a a' b b' h h' => combineInterp_rep am hn h h' rfl
  obtain ⟨r, e7⟩ := (hs (Tens (WithBot K))).total (op := tensHjbCombineInterpRev am) (l := ts'.reverse) (fun a => ∃ b : Fin n → Fin n → WithBot K, a.IsMs [b])
    (fun x y ⟨b, hb⟩ ⟨b', hb'⟩ => by
      obtain ⟨c, hc, h⟩ := hop _ _ _ _ hb' hb
      exact ⟨c, hc, _, h⟩)
    (by intro h; have := congrArg List.length h; simp [hlen] at this)
    (fun x hx => by
      obtain ⟨i, hi, rfl⟩ := List.getElem_of_mem (List.mem_reverse.1 hx)
      exact ⟨_, h6'.get hi (by rw [← h6'.length_eq]; exact hi)⟩)
  obtain ⟨hl, hk⟩ := tfScan_suffix (hs (Tens (WithBot K))) (op := tensHjbCombineInterp am) e7
  have hW : ∀ k : Fin r.reverse.length, ∃ W : Fin n → Fin n → WithBot K, (r.reverse[k]).IsMs [W] ∧
      Paren (fun x y => .ok (combineVInterpTF (am n) x y)) (List.replicate (M.blocks - k) B ++ [M.VT]) W := by
    intro k
    obtain ⟨v, hv, hp⟩ := hk k (by omega)
    obtain ⟨W, hW, hP⟩ := paren_transfer (fun (a : Tens (WithBot K)) (b : Fin n → Fin n → WithBot K) => a.IsMs [b]) hop hp (List.forall₂_drop k.val h6')
    rw [replicate_drop _ _ (by have := k.isLt; omega)] at hP
    have : r.reverse[k] = v := by
      rw [Fin.getElem_fin]
      rw [List.getElem?_eq_getElem k.isLt] at hv
      exact Option.some.inj hv
    exact ⟨W, this ▸ hW, hP⟩
  choose W hW1 hW2 using hW
  have hF : List.Forall₂ (fun (a : Tens (WithBot K)) b => a.IsMs [b]) r.reverse (List.ofFn W) := by
    rw [List.forall₂_iff_get]
    refine ⟨by simp, fun k h1 h2 => ?_⟩
    have := hW1 ⟨k, h1⟩
    simpa using this
  have hF' := List.rel_reverse hF
  rw [List.reverse_reverse] at hF'
  have hln : (List.ofFn W).length = M.blocks + 1 := by rw [List.length_ofFn, hl, hlen]
  obtain ⟨tj, e8, h8⟩ := Tens.IsB.joinAll (s := [n, n]) (D := fun f (A : Fin n → Fin n → WithBot K) => ∀ x y, f [x.val, y.val] = A x y) hF' (by intro h; have := congrArg List.length h; rw [List.length_reverse, hln] at this; simp at this)
  obtain ⟨tq, e9, h9⟩ := h8.reverse
  rw [List.reverse_reverse] at h9
  obtain ⟨t, e10, h10⟩ := (Tens.isMs_iff.2 h9).selectLast
  refine ⟨t, List.ofFn W, bstep e0 (bstep e1 (bstep e2 (bstep e3 (bstep e4 (bstep e5 (bstep ?_ (bstep e9 e10))))))), h10, hln, ?_⟩
  · exact bstep e6 (bstep e7 e8)
  · intro k hk
    have := hW2 ⟨k, by simpa using hk⟩
    simpa using this

end Assoc

/-! ### The finite differences -/

/-- The tensor is the vector of the first `n` values of `g`. -/
def Tens.IsN (t : Tens K) (n : ℕ) (g : ℕ → K) : Prop := t.shape = [n] ∧ ∀ k < n, t.val [k] = g k

theorem Tens.IsN.slice {t : Tens K} {n : ℕ} {g : ℕ → K} (h : t.IsN n g) (lo : ℤ) (hi : Option ℤ) (a b : ℕ) (ha : sliceEnd n lo = a)
    (hb : (match hi with | none => n | some h => sliceEnd n h) = b) (hbn : b ≤ n) :
    ∃ r, t.pySlice lo hi = .ok r ∧ r.IsN (b - a) fun k => g (k + a) := by
  obtain ⟨s, v⟩ := t
  obtain ⟨h1, h2⟩ := h
  dsimp only at h1 h2
  subst h1 ha
  refine ⟨⟨[min b n - sliceEnd n lo], fun i => v (i.set 0 (i.getD 0 0 + sliceEnd n lo))⟩, ?_, ?_, fun k hk => ?_⟩
  · rw [← hb]; rfl
  · show [min b n - sliceEnd n lo] = _
    rw [min_eq_left hbn]
  · exact h2 (k + sliceEnd n lo) (by omega)

theorem Tens.IsN.bin {f : K → K → K} {a b : Tens K} {n : ℕ} {g h : ℕ → K} (ha : a.IsN n g) (hb : b.IsN n h) :
    ∃ r, a.bin f b = .ok r ∧ r.IsN n fun k => f (g k) (h k) := by
  obtain ⟨sa, va⟩ := a
  obtain ⟨sb, vb⟩ := b
  obtain ⟨h1, h2⟩ := ha
  obtain ⟨h3, h4⟩ := hb
  dsimp only at h1 h2 h3 h4
  subst h1 h3
  refine ⟨_, Tens.bin_eq (s := [n]) (by simp [padShape]) (by simp [padShape]), rfl, fun k hk => ?_⟩
  have e : bcastIdx [n] [k] = [k] := by simp [bcastIdx, padShape, bc_lt hk]
  show f (va (bcastIdx [n] [k])) (vb (bcastIdx [n] [k])) = _
  rw [e, h2 k hk, h4 k hk]

theorem Tens.IsN.map {f : K → K} {a : Tens K} {n : ℕ} {g : ℕ → K} (ha : a.IsN n g) : (a.map f).IsN n fun k => f (g k) :=
  ⟨ha.1, fun k hk => congrArg f (ha.2 k hk)⟩

theorem Tens.IsN.concat3 {a b c : Tens K} {n m l : ℕ} {g h k : ℕ → K} (ha : a.IsN n g) (hb : b.IsN m h) (hc : c.IsN l k) :
    ∃ r, Tens.concatAll [a, b, c] 0 = .ok r ∧
      r.IsN (n + m + l) fun x => if x < n + m then (if x < n then g x else h (x - n)) else k (x - (n + m)) := by
  obtain ⟨sa, va⟩ := a
  obtain ⟨sb, vb⟩ := b
  obtain ⟨sc, vc⟩ := c
  obtain ⟨h1, h2⟩ := ha
  obtain ⟨h3, h4⟩ := hb
  obtain ⟨h5, h6⟩ := hc
  dsimp only at h1 h2 h3 h4 h5 h6
  subst h1 h3 h5
  refine ⟨⟨[n + m + l], fun i => if i.getD 0 0 < n + m then (if i.getD 0 0 < n then va i else vb (i.set 0 (i.getD 0 0 - n)))
    else vc (i.set 0 (i.getD 0 0 - (n + m)))⟩, rfl, rfl, fun x hx => ?_⟩
  show (if x < n + m then (if x < n then va [x] else vb [x - n]) else vc [x - (n + m)]) = _
  dsimp only
  split
  · split
    · exact h2 x ‹_›
    · exact h4 _ (by omega)
  · exact h6 _ (by omega)

section Differences
variable [Field K] [LinearOrder K] {m n : ℕ} [NeZero m]

omit [Field K] [LinearOrder K] [NeZero m] in
/-- A row is broadcast to a mesh. -/
theorem mesh_row {f : K → K → K} {a b : Tens K} {A : Fin m → Fin n → K} {g : ℕ → K} (ha : a.IsM A) (hb : b.IsN n g) :
    ∃ r, a.bin f b = .ok r ∧ r.IsM fun u i => f (A u i) (g i) := by
  obtain ⟨sa, va⟩ := a
  obtain ⟨sb, vb⟩ := b
  obtain ⟨h1, h2⟩ := ha
  obtain ⟨h3, h4⟩ := hb
  dsimp only at h1 h2 h3 h4
  subst h1 h3
  refine ⟨_, Tens.bin_eq (s := [m, n]) (by simp [padShape]) (by simp [padShape]; exact fun h => h.symm), rfl, fun u i => ?_⟩
  have e1 : bcastIdx [m, n] [u.val, i.val] = [u.val, i.val] := by simp [bcastIdx, padShape, bc_lt]
  have e2 : bcastIdx [n] [u.val, i.val] = [i.val] := by simp [bcastIdx, padShape, bc_lt]
  show f (va (bcastIdx [m, n] [u.val, i.val])) (vb (bcastIdx [n] [u.val, i.val])) = _
  rw [e1, e2, h2, h4 _ i.isLt]

omit [Field K] [LinearOrder K] [NeZero m] in
theorem mesh_bin {f : K → K → K} {a b : Tens K} {A B : Fin m → Fin n → K} (ha : a.IsM A) (hb : b.IsM B) :
    ∃ r, a.bin f b = .ok r ∧ r.IsM fun u i => f (A u i) (B u i) := by
  obtain ⟨sa, va⟩ := a
  obtain ⟨sb, vb⟩ := b
  obtain ⟨h1, h2⟩ := ha
  obtain ⟨h3, h4⟩ := hb
  dsimp only at h1 h2 h3 h4
  subst h1 h3
  obtain ⟨v, e, h⟩ := bin_same2 (f := f) va vb
  exact ⟨_, e, rfl, fun u i => by
    show v [u.val, i.val] = _
    rw [h _ _ u.isLt i.isLt, h2, h4]⟩

omit [Field K] in
theorem mesh_min {a : Tens K} {A : Fin m → Fin n → K} (ha : a.IsM A) : ∃ r, a.reduceMin 0 = .ok r ∧ r.IsV fun i => min1 fun u => A u i := by
  obtain ⟨sa, va⟩ := a
  obtain ⟨h1, h2⟩ := ha
  dsimp only at h1 h2
  subst h1
  refine ⟨⟨[n], fun i => (List.range m).foldl (fun b k => min b (va (i.insertIdx 0 k))) (va (i.insertIdx 0 0))⟩, if_neg (NeZero.ne m), rfl, fun i => ?_⟩
  show (List.range m).foldl (fun b k => min b (va [k, i.val])) (va [0, i.val]) = _
  unfold min1
  rw [← List.map_coe_finRange_eq_range, List.foldl_map]
  have e0 : va [0, i.val] = A 0 i := by simpa using h2 0 i
  rw [e0]
  congr 1
  funext b k
  rw [h2]

omit [Field K] [LinearOrder K] in
theorem IsV.toN {t : Tens K} {V : Fin (n + 2) → K} (h : t.IsV V) : t.IsN (n + 2) fun k => V ⟨min k (n + 1), by omega⟩ :=
  ⟨h.1, fun k hk => by
    have := h.2 ⟨k, hk⟩
    rw [this]
    exact congrArg V (Fin.ext (by simp; omega))⟩

omit [LinearOrder K] in
/-- The four differences of the two bodies. -/
theorem diffs_rep {tV : Tens K} {V : Fin (n + 2) → K} (hV : tV.IsV V) (lo1 lo2 : ℤ) (hi1 hi2 : Option ℤ) (a b : ℕ) (d : K)
    (ha : sliceEnd (n + 2) lo1 = a) (ha' : (match hi1 with | none => n + 2 | some h => sliceEnd (n + 2) h) = a + n)
    (hb : sliceEnd (n + 2) lo2 = b) (hb' : (match hi2 with | none => n + 2 | some h => sliceEnd (n + 2) h) = b + n) (ha2 : a ≤ 2) (hb2 : b ≤ 2) :
    ∃ p q r, tV.pySlice lo1 hi1 = .ok p ∧ tV.pySlice lo2 hi2 = .ok q ∧ p.bin (· - ·) q = .ok r ∧
      (r.map (· / d)).IsN n fun k => (V ⟨min (k + a) (n + 1), by omega⟩ - V ⟨min (k + b) (n + 1), by omega⟩) / d := by
  have h := IsV.toN hV
  obtain ⟨p, e1, h1⟩ := h.slice lo1 hi1 a (a + n) ha ha' (by omega)
  obtain ⟨q, e2, h2⟩ := h.slice lo2 hi2 b (b + n) hb hb' (by omega)
  rw [Nat.add_sub_cancel_left] at h1 h2
  obtain ⟨r, e3, h3⟩ := h1.bin (f := (· - ·)) h2
  exact ⟨p, q, r, e1, e2, e3, h3.map⟩

omit [LinearOrder K] in
/-- The differences at the ends. -/
theorem ends_rep {tV : Tens K} {V : Fin (n + 2) → K} (hV : tV.IsV V) (d : K) :
    (∃ p q r, tV.pySlice 1 (some 2) = .ok p ∧ tV.pySlice 0 (some 1) = .ok q ∧ p.bin (· - ·) q = .ok r ∧
      (r.map (· / d)).IsN 1 fun k => (V ⟨min (k + 1) (n + 1), by omega⟩ - V ⟨min (k + 0) (n + 1), by omega⟩) / d) ∧
    ∃ p q r, tV.pySlice (-1) none = .ok p ∧ tV.pySlice (-2) (some (-1)) = .ok q ∧ p.bin (· - ·) q = .ok r ∧
      (r.map (· / d)).IsN 1 fun k => (V ⟨min (k + (n + 1)) (n + 1), by omega⟩ - V ⟨min (k + n) (n + 1), by omega⟩) / d := by
  have h := IsV.toN hV
  constructor
  · obtain ⟨p, e1, h1⟩ := h.slice 1 (some 2) 1 2 (by unfold sliceEnd; omega) (by show sliceEnd _ _ = _; unfold sliceEnd; omega) (by omega)
    obtain ⟨q, e2, h2⟩ := h.slice 0 (some 1) 0 1 (by unfold sliceEnd; omega) (by show sliceEnd _ _ = _; unfold sliceEnd; omega) (by omega)
    obtain ⟨r, e3, h3⟩ := Tens.IsN.bin (f := (· - ·)) h1 h2
    exact ⟨p, q, r, e1, e2, e3, h3.map⟩
  · obtain ⟨p, e1, h1⟩ := h.slice (-1) none (n + 1) (n + 2) (by unfold sliceEnd; omega) rfl (by omega)
    obtain ⟨q, e2, h2⟩ := h.slice (-2) (some (-1)) n (n + 1) (by unfold sliceEnd; omega) (by show sliceEnd _ _ = _; unfold sliceEnd; omega) (by omega)
    rw [show n + 2 - (n + 1) = 1 by omega] at h1
    rw [show n + 1 - n = 1 by omega] at h2
    obtain ⟨r, e3, h3⟩ := Tens.IsN.bin (f := (· - ·)) h1 h2
    exact ⟨p, q, r, e1, e2, e3, h3.map⟩

omit [Field K] [LinearOrder K] in
/-- The three parts of a difference vector. -/
theorem parts_rep {a b c : Tens K} {g h k : ℕ → K} {D : Fin (n + 2) → K} (ha : a.IsN 1 g) (hb : b.IsN n h) (hc : c.IsN 1 k)
    (h0 : g 0 = D 0) (h1 : ∀ x : Fin (n + 2), x ≠ 0 → x ≠ Fin.last (n + 1) → h (x - 1) = D x) (h2 : k 0 = D (Fin.last (n + 1))) :
    ∃ r, Tens.concatAll [a, b, c] 0 = .ok r ∧ r.IsN (n + 2) fun x => D ⟨min x (n + 1), by omega⟩ := by
  obtain ⟨r, e, hr, hv⟩ := ha.concat3 hb hc
  refine ⟨r, e, by rw [hr, show 1 + n + 1 = n + 2 by omega], fun x hx => ?_⟩
  rw [hv x (by omega)]
  dsimp only
  by_cases x0 : x = 0
  · subst x0
    rw [if_pos (by omega), if_pos (by omega), h0]
    exact congrArg D (Fin.ext (by simp))
  · by_cases xl : x = n + 1
    · subst xl
      rw [if_neg (by omega), show n + 1 - (1 + n) = 0 by omega, h2]
      exact congrArg D (Fin.ext (by simp))
    · rw [if_pos (by omega), if_neg (by omega)]
      have := h1 ⟨x, hx⟩ (fun h => x0 (by simpa using congrArg Fin.val h)) (fun h => xl (by simpa using congrArg Fin.val h))
      rw [this]
      exact congrArg D (Fin.ext (by simp; omega))

omit [LinearOrder K] [NeZero m] in
/-- The sum of the running cost and a mesh is the mesh of the sums; the running cost is a mesh or is broadcast to one. -/
def MeshCost (tL : Tens K) (A : Fin m → Fin n → K) : Prop :=
  ∀ {tq : Tens K} {q : Fin m → Fin n → K}, tq.IsM q → ∃ r, tL.bin (· + ·) tq = .ok r ∧ r.IsM fun u i => A u i + q u i

/-- The running cost on the meshes of two grids. -/
def CostOn (L : TensFun K) (tx tu : Tens K) (A : Fin m → Fin n → K) : Prop :=
  ∀ X U, Tens.meshgrid tx tu = .ok (X, U) → ∃ tL, L X U = .ok tL ∧ MeshCost tL A

omit [LinearOrder K] [NeZero m] in
theorem meshCost_const (c : K) : MeshCost (Tens.const [] c) fun (_ : Fin m) (_ : Fin n) => c := by
  intro tq q hq
  obtain ⟨sq, vq⟩ := tq
  obtain ⟨h1, h2⟩ := hq
  dsimp only at h1 h2
  subst h1
  refine ⟨_, Tens.bin_eq (s := [m, n]) (by simp [padShape, Tens.const]) (by simp [padShape, Tens.const]), rfl, fun u i => ?_⟩
  have e1 : bcastIdx [m, n] [u.val, i.val] = [u.val, i.val] := by simp [bcastIdx, padShape, bc_lt]
  show c + vq (bcastIdx [m, n] [u.val, i.val]) = _
  rw [e1, h2]

theorem symBody_rep {f L : K → K → K} {g : Fin (n + 2) → K} {ug : Fin m → K} {tL tf tV : Tens K} {V : Fin (n + 2) → K} (dx dt : K)
    (hL : MeshCost tL fun u i => L (g i) (ug u)) (hf : tf.IsM fun u i => f (g i) (ug u)) (hV : tV.IsV V) :
    ∃ r, tensSymBody tL tf dx dt tV = .ok r ∧ r.IsV (symStepTF f L g ug dx dt V) := by
  obtain ⟨⟨p0, q0, r0, a1, a2, a3, a4⟩, p2, q2, r2, c1, c2, c3, c4⟩ := ends_rep hV dx
  obtain ⟨p1, q1, r1, b1, b2, b3, b4⟩ := diffs_rep hV 2 0 none (some (-2)) 2 0 (2 * dx) (by unfold sliceEnd; omega) (by show n + 2 = _; omega)
    (by unfold sliceEnd; omega) (by show sliceEnd _ _ = _; unfold sliceEnd; omega) (by omega) (by omega)
  obtain ⟨D, d1, d2⟩ := parts_rep (D := dvSym dx V) a4 b4 c4 (by
      unfold dvSym
      rw [if_pos rfl]
      congr 2) (by
      intro x hx hl
      unfold dvSym
      rw [if_neg hx, if_neg hl]
      have : x.val ≠ 0 := fun h => hx (Fin.ext h)
      refine congrArg (· / (2 * dx)) (congr (congrArg (fun a b : K => a - b) (congrArg V (Fin.ext ?_))) (congrArg V (Fin.ext ?_)))
      · simp [nxt]; omega
      · simp [prv]) (by
      unfold dvSym
      rw [if_neg (by simp [Fin.ext_iff]), if_pos rfl]
      refine congrArg (· / dx) (congr (congrArg (fun a b : K => a - b) (congrArg V (Fin.ext ?_))) (congrArg V (Fin.ext ?_)))
      · simp
      · simp [prv])
  obtain ⟨Q1, f1, f2⟩ := mesh_row (f := (· * ·)) hf d2
  obtain ⟨Q2, f3, f4⟩ := hL f2
  obtain ⟨Q3, f5, f6⟩ := mesh_min f4
  obtain ⟨r, f7, f8⟩ := (IsV.toN hV).bin (f := (· + ·)) ((IsV.toN f6).map (f := (· * dt)))
  refine ⟨r, ?_, f8.1, fun i => ?_⟩
  · refine bstep a1 (bstep a2 (bstep a3 (bstep b1 (bstep b2 (bstep b3 (bstep c1 (bstep c2 (bstep c3 (bstep d1 (bstep f1 (bstep f3 (bstep f5 ?_))))))))))))
    exact f7
  · have e : (⟨min i.val (n + 1), by omega⟩ : Fin (n + 2)) = i := Fin.ext (by simp; omega)
    have e2 : (⟨min (min i.val (n + 1)) (n + 1), by omega⟩ : Fin (n + 2)) = i := Fin.ext (by simp; omega)
    rw [f8.2 i i.isLt]
    dsimp only
    simp only [e, e2]
    rfl

theorem upwindBody_rep {f L : K → K → K} {g : Fin (n + 2) → K} {ug : Fin m → K} {tL tf tV : Tens K} {V : Fin (n + 2) → K} (dx dt : K)
    (hL : MeshCost tL fun u i => L (g i) (ug u)) (hf : tf.IsM fun u i => f (g i) (ug u)) (hV : tV.IsV V) :
    ∃ r, tensUpwindBody tL tf (tf.map jsign) dx dt tV = .ok r ∧ r.IsV (upwindStep f L g ug dx dt V) := by
  obtain ⟨⟨p0, q0, r0, a1, a2, a3, a4⟩, p2, q2, r2, c1, c2, c3, c4⟩ := ends_rep hV dx
  obtain ⟨p1, q1, r1, b1, b2, b3, b4⟩ := diffs_rep hV 2 1 none (some (-1)) 2 1 dx (by unfold sliceEnd; omega) (by show n + 2 = _; omega)
    (by unfold sliceEnd; omega) (by show sliceEnd _ _ = _; unfold sliceEnd; omega) (by omega) (by omega)
  obtain ⟨p3, q3, r3, g1, g2, g3, g4⟩ := diffs_rep hV 1 0 (some (-1)) (some (-2)) 1 0 dx (by unfold sliceEnd; omega)
    (by show sliceEnd _ _ = _; unfold sliceEnd; omega)
    (by unfold sliceEnd; omega) (by show sliceEnd _ _ = _; unfold sliceEnd; omega) (by omega) (by omega)
  obtain ⟨Df, d1, d2⟩ := parts_rep (D := dvFwd dx V) a4 b4 c4 (by
      unfold dvFwd
      rw [if_pos rfl]
      congr 2) (by
      intro x hx hl
      unfold dvFwd
      rw [if_neg hx, if_neg hl]
      have : x.val ≠ 0 := fun h => hx (Fin.ext h)
      refine congrArg (· / dx) (congr (congrArg (fun a b : K => a - b) (congrArg V (Fin.ext ?_))) (congrArg V (Fin.ext ?_)))
      · simp [nxt]; omega
      · simp; omega) (by
      unfold dvFwd
      rw [if_neg (by simp [Fin.ext_iff]), if_pos rfl]
      refine congrArg (· / dx) (congr (congrArg (fun a b : K => a - b) (congrArg V (Fin.ext ?_))) (congrArg V (Fin.ext ?_)))
      · simp
      · simp [prv])
  obtain ⟨Db, d3, d4⟩ := parts_rep (D := dvBwd dx V) a4 g4 c4 (by
      unfold dvBwd
      rw [if_pos rfl]
      congr 2) (by
      intro x hx hl
      unfold dvBwd
      rw [if_neg hx, if_neg hl]
      have : x.val ≠ 0 := fun h => hx (Fin.ext h)
      refine congrArg (· / dx) (congr (congrArg (fun a b : K => a - b) (congrArg V (Fin.ext ?_))) (congrArg V (Fin.ext ?_)))
      · simp; omega
      · simp [prv]) (by
      unfold dvBwd
      rw [if_neg (by simp [Fin.ext_iff]), if_pos rfl]
      refine congrArg (· / dx) (congr (congrArg (fun a b : K => a - b) (congrArg V (Fin.ext ?_))) (congrArg V (Fin.ext ?_)))
      · simp
      · simp [prv])
  have hs : ∀ w : K → K, ((tf.map jsign).map w).IsM fun u i => w (jsign (f (g i) (ug u))) := fun w =>
    ⟨hf.1, fun u i => congrArg (fun z => w (jsign z)) (hf.2 u i)⟩
  obtain ⟨Q1, f1, f2⟩ := mesh_bin (f := (· * ·)) (hs fun s => 1 / 2 + 1 / 2 * s) hf
  obtain ⟨Q2, f3, f4⟩ := mesh_row (f := (· * ·)) f2 d2
  obtain ⟨Q3, f5, f6⟩ := mesh_bin (f := (· * ·)) (hs fun s => 1 / 2 - 1 / 2 * s) hf
  obtain ⟨Q4, f7, f8⟩ := mesh_row (f := (· * ·)) f6 d4
  obtain ⟨Q5, f9, f10⟩ := hL f4
  obtain ⟨Q6, f11, f12⟩ := mesh_bin (f := (· + ·)) f10 f8
  obtain ⟨Q7, f13, f14⟩ := mesh_min f12
  obtain ⟨r, f15, f16⟩ := (IsV.toN hV).bin (f := (· + ·)) ((IsV.toN f14).map (f := (· * dt)))
  refine ⟨r, ?_, f16.1, fun i => ?_⟩
  · refine bstep a1 (bstep a2 (bstep a3 (bstep b1 (bstep b2 (bstep b3 (bstep g1 (bstep g2 (bstep g3 (bstep c1 (bstep c2 (bstep c3
      (bstep d1 (bstep d3 ?_)))))))))))))
    exact bstep f1 (bstep f3 (bstep f5 (bstep f7 (bstep f9 (bstep f11 (bstep f13 f15))))))
  · have e : (⟨min i.val (n + 1), by omega⟩ : Fin (n + 2)) = i := Fin.ext (by simp; omega)
    have e2 : (⟨min (min i.val (n + 1)) (n + 1), by omega⟩ : Fin (n + 2)) = i := Fin.ext (by simp; omega)
    rw [f16.2 i i.isLt]
    dsimp only
    simp only [e, e2]
    rfl

omit [Field K] [LinearOrder K] [NeZero m] in
/-- A row of `t[0::s]`. -/
theorem stride_rep {t : Tens K} (b s : ℕ) (hs : s ≠ 0) {F : ℕ → Fin n → K} (h : t.IsVs ((List.range (b * s + 1)).map F)) :
    ∃ r, t.stride s = .ok r ∧ r.IsVs ((List.range (b + 1)).map fun k => F (k * s)) := by
  obtain ⟨st, v⟩ := t
  obtain ⟨h1, h2⟩ := h
  dsimp only at h1 h2
  rw [List.length_map, List.length_range] at h1
  subst h1
  have e : (b * s + 1 + s - 1) / s = b + 1 := by
    rw [show b * s + 1 + s - 1 = (b + 1) * s by rw [Nat.add_mul]; omega, Nat.mul_div_cancel _ (Nat.pos_of_ne_zero hs)]
  refine ⟨_, if_neg hs, by rw [e, List.length_map, List.length_range], fun k hk x => ?_⟩
  have hk' : k < b + 1 := by simpa using hk
  have hle : k * s ≤ b * s := Nat.mul_le_mul_right _ (by omega)
  have := h2 (k * s) (by simp; omega) x
  show v [k * s, x.val] = _
  rw [this]
  simp

omit [Field K] [LinearOrder K] [NeZero m] in
theorem fdScan_rep {body LT : Tens K → Py (Tens K)} {step : (Fin n → K) → Fin n → K} {lt : K → K}
    (hb : ∀ t V, t.IsV V → ∃ r, body t = .ok r ∧ r.IsV (step V)) (hLT : Pointwise1 LT lt) (b s : ℕ) (hs : s ≠ 0) {tg : Tens K}
    {g : Fin n → K} (hg : tg.IsV g) :
    ∃ t, tensFdScan body LT b s tg = .ok t ∧ t.IsVs ((List.range (b + 1)).map fun k => step^[(b - k) * s] fun i => lt (g i)) := by
  obtain ⟨tV, e1, hs1, hv⟩ := hLT tg
  have h1 : tV.IsV fun i => lt (g i) := ⟨by rw [hs1, hg.1], fun i => by
    rw [hv _ (by rw [hg.1]; exact mem_allIdx1.2 ⟨i, rfl, i.isLt⟩), hg.2 i]⟩
  obtain ⟨r, r', e3, e4, h4, -⟩ := scanRev_transfer (bA := fun carry (_ : ℕ) => body carry)
    (bB := fun d (_ : ℕ) => (.ok (step d) : Py _)) (fun a c => a = c) (fun a b => a.IsV b)
    (fun b d _ _ hS _ => by
      obtain ⟨c, e, h⟩ := hb _ _ hS
      exact ⟨c, _, e, rfl, h⟩) (List.forall₂_same.2 fun x _ => rfl : List.Forall₂ _ (List.range (b * s)) (List.range (b * s))) h1
  rw [scanRev_iter] at e4
  cases e4
  obtain ⟨tS, e5, h5⟩ := stack_isVs h4 tV.val
  obtain ⟨tV', e6, h6⟩ := h1.batch
  obtain ⟨tC, e7, h7⟩ := Tens.IsB.concat (Tens.isVs_iff.1 h5) (Tens.isVs_iff.1 h6)
  have hl : (List.range (b * s)).map (fun k => step^[b * s - k] fun i => lt (g i)) ++ [fun i => lt (g i)] =
      (List.range (b * s + 1)).map fun k => step^[b * s - k] fun i => lt (g i) := by
    rw [List.range_succ, List.map_append]
    simp
  simp only [List.length_range] at h7
  rw [hl, ← Tens.isVs_iff] at h7
  obtain ⟨t, e8, h8⟩ := stride_rep b s hs h7
  refine ⟨t, bstep e1 (bstep e3 (bstep ?_ (bstep e6 (bstep e7 e8)))), ?_⟩
  · rw [h1.1]; exact e5
  · simpa only [Nat.sub_mul] using h8

omit [Field K] [LinearOrder K] [NeZero m] in
theorem meshgrid_rep {tx tu : Tens K} {g : Fin n → K} {ug : Fin m → K} (hx : tx.IsV g) (hu : tu.IsV ug) :
    ∃ X U, Tens.meshgrid tx tu = .ok (X, U) ∧ ∀ (F : TensFun K) (f : K → K → K), Pointwise2 F f →
      ∃ r, F X U = .ok r ∧ r.IsM fun (u : Fin m) (i : Fin n) => f (g i) (ug u) := by
  obtain ⟨sx, vx⟩ := tx
  obtain ⟨su, vu⟩ := tu
  obtain ⟨h1, h2⟩ := hx
  obtain ⟨h3, h4⟩ := hu
  dsimp only at h1 h2 h3 h4
  subst h1 h3
  refine ⟨_, _, rfl, fun F f hF => ?_⟩
  obtain ⟨r, e, hs, hv⟩ := hF ⟨[m, n], fun i => vx [i.getD 1 0]⟩ ⟨[m, n], fun i => vu [i.getD 0 0]⟩ rfl
  refine ⟨r, e, hs, fun u i => ?_⟩
  rw [hv _ (mem_allIdx2.2 ⟨u, i, rfl, u.isLt, i.isLt⟩)]
  exact congr (congrArg f (h2 i)) (h4 u)

omit [Field K] [LinearOrder K] [NeZero m] in
theorem select_elem {k : ℕ} (h : k < n) {v : List ℕ → K} : Tens.select ⟨[n], v⟩ 0 k = .ok ⟨[], fun i => v (i.insertIdx 0 k)⟩ := if_pos h

omit [NeZero m] in
theorem steps_rep (T : K) (b s : ℕ) {tx : Tens K} {g : Fin (n + 2) → K} (hx : tx.IsV g) :
    tensHjbSteps T b s tx = if b = 0 ∨ s = 0 then .error .zeroDivisionError else if g 1 - g 0 = 0 then .error .notFinite
      else .ok (g 1 - g 0, T / b / s) := by
  obtain ⟨sx, vx⟩ := tx
  obtain ⟨h1, h2⟩ := hx
  dsimp only at h1 h2
  subst h1
  have e1 : Tens.select (⟨[n + 2], vx⟩ : Tens K) 0 1 = .ok ⟨[], fun i => vx (i.insertIdx 0 1)⟩ := select_elem (by omega)
  have e0 : Tens.select (⟨[n + 2], vx⟩ : Tens K) 0 0 = .ok ⟨[], fun i => vx (i.insertIdx 0 0)⟩ := select_elem (by omega)
  have v1 : vx [1] = g 1 := h2 1
  have v0 : vx [0] = g 0 := h2 0
  refine bstep e1 (bstep e0 ?_)
  show (do
    if b = 0 ∨ s = 0 then throw .zeroDivisionError
    if vx [1] - vx [0] = 0 then throw .notFinite
    return (vx [1] - vx [0], T / b / s) : Py (K × K)) = _
  rw [v1, v0]
  by_cases hbs : b = 0 ∨ s = 0
  · rw [if_pos hbs, if_pos hbs]; rfl
  · rw [if_neg hbs, if_neg hbs]
    by_cases hd : g 1 - g 0 = 0
    · rw [if_pos hd, if_pos hd]; rfl
    · rw [if_neg hd, if_neg hd]; rfl

/-- The result of a pass on tensors belongs to that of the functional model. -/
def PassRep (a : Py (Tens K)) (b : Py (List (Fin n → K))) : Prop :=
  (∀ e, b = .error e → a = .error e) ∧ ∀ l, b = .ok l → ∃ t, a = .ok t ∧ t.IsVs l

omit [LinearOrder K] [NeZero m] in
theorem costOn_pointwise {L : TensFun K} {l : K → K → K} {tx tu : Tens K} {g : Fin n → K} {ug : Fin m → K} (hx : tx.IsV g) (hu : tu.IsV ug)
    (hL : Pointwise2 L l) : CostOn L tx tu fun u i => l (g i) (ug u) := by
  intro X U e
  obtain ⟨X', U', e1, hF⟩ := meshgrid_rep hx hu
  rw [e1] at e
  cases e
  obtain ⟨tL, e2, h2⟩ := hF L l hL
  exact ⟨tL, e2, fun hq => mesh_bin h2 hq⟩

theorem symfd_rep_of (M : HJB (n + 2) K) {f L : TensFun K} {LT : Tens K → Py (Tens K)} (hf : Pointwise2 f M.f)
    (hLT : Pointwise1 LT M.LT) {tx tu : Tens K} {ug : Fin m → K} (hx : tx.IsV M.grid) (hu : tu.IsV ug)
    (hL : CostOn L tx tu fun u i => M.L (M.grid i) (ug u)) :
    PassRep (tensSeqBwPassSymfd f L LT M.T M.blocks M.steps tx tu) (seqBwPassSymfdTF M ug) := by
  obtain ⟨X, U, e1, hF⟩ := meshgrid_rep hx hu
  obtain ⟨tL, e2, h2⟩ := hL X U e1
  obtain ⟨tf, e3, h3⟩ := hF f M.f hf
  have e0 := steps_rep M.T M.blocks M.steps hx
  unfold seqBwPassSymfdTF HJB.dt
  by_cases hbs : M.blocks = 0 ∨ M.steps = 0
  · rw [if_pos hbs] at e0 ⊢
    exact ⟨fun e he => (by cases he; exact bstep e1 (by rw [e0]; rfl)), fun l hl => (by cases hl)⟩
  · rw [if_neg hbs] at e0 ⊢
    by_cases hd : M.grid 1 - M.grid 0 = 0
    · rw [if_pos hd] at e0
      dsimp only
      rw [tens_bind, if_pos hd]
      exact ⟨fun e he => (by cases he; exact bstep e1 (by rw [e0]; rfl)), fun l hl => (by cases hl)⟩
    · rw [if_neg hd] at e0
      dsimp only
      rw [tens_bind, if_neg hd]
      have hs : M.steps ≠ 0 := fun h => hbs (Or.inr h)
      obtain ⟨t, e4, h4⟩ := fdScan_rep (fun tV V hV => symBody_rep (M.grid 1 - M.grid 0) (M.T / M.blocks / M.steps) h2 h3 hV) hLT M.blocks M.steps hs hx
      have hm := scan_stride (symStepTF M.f M.L M.grid ug (M.grid 1 - M.grid 0) (M.T / M.blocks / M.steps)) M.blocks M.steps hs
        (fun i => M.LT (M.grid i))
      refine ⟨fun e he => ?_, fun l hl => ⟨t, bstep e1 (bstep e0 (bstep e2 (bstep e3 e4))), ?_⟩⟩
      · exact absurd (hm.symm.trans he) (by simp)
      · have := Except.ok.inj (hm.symm.trans hl)
        exact this ▸ h4

theorem symfd_rep (M : HJB (n + 2) K) {f L : TensFun K} {LT : Tens K → Py (Tens K)} (hf : Pointwise2 f M.f) (hL : Pointwise2 L M.L)
    (hLT : Pointwise1 LT M.LT) {tx tu : Tens K} {ug : Fin m → K} (hx : tx.IsV M.grid) (hu : tu.IsV ug) :
    PassRep (tensSeqBwPassSymfd f L LT M.T M.blocks M.steps tx tu) (seqBwPassSymfdTF M ug) :=
  symfd_rep_of M hf hLT hx hu (costOn_pointwise hx hu hL)

theorem upwind_rep_of (M : HJB (n + 2) K) {f L : TensFun K} {LT : Tens K → Py (Tens K)} (hf : Pointwise2 f M.f)
    (hLT : Pointwise1 LT M.LT) {tx tu : Tens K} {ug : Fin m → K} (hx : tx.IsV M.grid) (hu : tu.IsV ug)
    (hL : CostOn L tx tu fun u i => M.L (M.grid i) (ug u)) :
    PassRep (tensSeqBwPassUpwind f L LT M.T M.blocks M.steps tx tu) (seqBwPassUpwindTF M ug) := by
  obtain ⟨X, U, e1, hF⟩ := meshgrid_rep hx hu
  obtain ⟨tL, e2, h2⟩ := hL X U e1
  obtain ⟨tf, e3, h3⟩ := hF f M.f hf
  have e0 := steps_rep M.T M.blocks M.steps hx
  unfold seqBwPassUpwindTF HJB.dt
  by_cases hbs : M.blocks = 0 ∨ M.steps = 0
  · rw [if_pos hbs] at e0 ⊢
    exact ⟨fun e he => (by cases he; exact bstep e1 (by rw [e0]; rfl)), fun l hl => (by cases hl)⟩
  · rw [if_neg hbs] at e0 ⊢
    by_cases hd : M.grid 1 - M.grid 0 = 0
    · rw [if_pos hd] at e0
      dsimp only
      rw [tens_bind, if_pos hd]
      exact ⟨fun e he => (by cases he; exact bstep e1 (by rw [e0]; rfl)), fun l hl => (by cases hl)⟩
    · rw [if_neg hd] at e0
      dsimp only
      rw [tens_bind, if_neg hd]
      have hs : M.steps ≠ 0 := fun h => hbs (Or.inr h)
      obtain ⟨t, e4, h4⟩ := fdScan_rep (fun tV V hV => upwindBody_rep (M.grid 1 - M.grid 0) (M.T / M.blocks / M.steps) h2 h3 hV) hLT M.blocks M.steps hs hx
      have hm := scan_stride (upwindStep M.f M.L M.grid ug (M.grid 1 - M.grid 0) (M.T / M.blocks / M.steps)) M.blocks M.steps hs
        (fun i => M.LT (M.grid i))
      refine ⟨fun e he => ?_, fun l hl => ⟨t, bstep e1 (bstep e0 (bstep e2 (bstep e3 e4))), ?_⟩⟩
      · exact absurd (hm.symm.trans he) (by simp)
      · have := Except.ok.inj (hm.symm.trans hl)
        exact this ▸ h4

theorem upwind_rep (M : HJB (n + 2) K) {f L : TensFun K} {LT : Tens K → Py (Tens K)} (hf : Pointwise2 f M.f) (hL : Pointwise2 L M.L)
    (hLT : Pointwise1 LT M.LT) {tx tu : Tens K} {ug : Fin m → K} (hx : tx.IsV M.grid) (hu : tu.IsV ug) :
    PassRep (tensSeqBwPassUpwind f L LT M.T M.blocks M.steps tx tu) (seqBwPassUpwindTF M ug) :=
  upwind_rep_of M hf hLT hx hu (costOn_pointwise hx hu hL)

omit [NeZero m] in
/-- A grid with fewer than two points has no `fd_x_grid[1]`. -/
theorem few_fail (hn : n < 2) {tx tu : Tens K} (hx : tx.shape = [n]) (hu : tu.shape = [m]) (f L : TensFun K) (LT : Tens K → Py (Tens K)) (T : K)
    (b s : ℕ) : tensSeqBwPassSymfd f L LT T b s tx tu = .error .indexError ∧ tensSeqBwPassUpwind f L LT T b s tx tu = .error .indexError := by
  obtain ⟨sx, vx⟩ := tx
  obtain ⟨su, vu⟩ := tu
  dsimp only at hx hu
  subst hx hu
  have e1 : Tens.select (⟨[n], vx⟩ : Tens K) 0 1 = .error .indexError := if_neg (by show ¬ 1 < n; omega)
  have e0 : tensHjbSteps T b s ⟨[n], vx⟩ = .error .indexError := by
    unfold tensHjbSteps
    rw [e1]; rfl
  constructor
  · unfold tensSeqBwPassSymfd
    rw [e0]; rfl
  · unfold tensSeqBwPassUpwind
    rw [e0]; rfl

end Differences

end Verif
