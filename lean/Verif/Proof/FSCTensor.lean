import Verif.Proof.Tensor
import Verif.Proof.FSCPar

/-! Lemmas on the tensor model of `fsc_tf.py`. -/

namespace Verif

variable {K : Type} {n m : ℕ}

theorem combF_is {a b : Tens ℕ} {la lb : List (Fin n → Fin n)} (ha : a.IsVs (la.map fun f x => (f x).val))
    (hb : b.IsVs (lb.map fun f x => (f x).val)) (hl : la.length = lb.length) :
    ∃ c, tensCombF a b = .ok c ∧ c.IsVs ((List.zipWith tfFscCombF la lb).map fun f x => (f x).val) :=
  gather_comb hb ha hl

theorem const_isV (c : K) : (Tens.const [n] c).IsV fun _ : Fin n => c := ⟨rfl, fun _ => rfl⟩

theorem initLast_is [LinearOrder K] [AddCommMonoid K] {LT : Tens K} {v : Fin n → K} (h : LT.IsV v) :
    ∃ c, tensFscInitLast LT = .ok c ∧ c.IsM fun x (_ : Fin n) => v x := by
  obtain ⟨sa, va⟩ := LT
  obtain ⟨h1, h2⟩ := h
  dsimp only at h1 h2
  subst h1
  have ex : Tens.expandDims ⟨[n], va⟩ (-1) = .ok ⟨[n, 1], fun i => va (i.eraseIdx 1)⟩ := rfl
  have d : Tens.dim ⟨[n], va⟩ 0 = .ok n := rfl
  have ti : Tens.tile (⟨[n, 1], fun i => va (i.eraseIdx 1)⟩ : Tens K) [1, n] = .ok ⟨[n, n], fun i => va ((List.zipWith (· % ·) i [n, 1]).eraseIdx 1)⟩ := by
    simp [Tens.tile]
  simp only [tensFscInitLast, ex, d, tens_bind, ti]
  refine ⟨_, rfl, rfl, fun x y => ?_⟩
  simpa [Nat.mod_eq_of_lt] using h2 x

theorem scanMs {scan : AScan} (hs : ∀ α, IsAssocScan (scan α)) {fn : Tens K → Tens K → Py (Tens K)}
    {g : (Fin n → Fin n → K) → (Fin n → Fin n → K) → (Fin n → Fin n → K)}
    (hop : ∀ (a a' : Tens K) b b', a.IsMs [b] → a'.IsMs [b'] → ∃ c, fn a a' = .ok c ∧ c.IsMs [g b b'])
    (hassoc : ∀ x y z, g (g x y) z = g x (g y z)) {t : Tens K} {l : List (Fin n → Fin n → K)} (h : t.IsMs l) (hne : l ≠ []) :
    ∃ r lr, t.scanAssoc scan fn = .ok r ∧ scan _ (fun x y => .ok (g x y)) l = .ok lr ∧ r.IsMs lr ∧ lr.length = l.length :=
  Tens.IsB.scanAssoc (s := [n, n]) (D := fun f (A : Fin n → Fin n → K) => ∀ x y : Fin n, f [x.val, y.val] = A x y) hs hop hassoc h hne

theorem isF_iff {t : Tens ℕ} {p : ℕ} {l : List (Fin n → Fin p)} :
    t.IsVs (l.map fun f x => (f x).val) ↔ t.IsB [n] (fun f A => ∀ x, f [x.val] = (A x).val) l := by
  simp only [Tens.IsVs, Tens.IsB, List.length_map, List.getElem_map]

theorem scanFs {scan : AScan} (hs : ∀ α, IsAssocScan (scan α)) {fn : Tens ℕ → Tens ℕ → Py (Tens ℕ)}
    {g : (Fin n → Fin n) → (Fin n → Fin n) → (Fin n → Fin n)}
    (hop : ∀ (a a' : Tens ℕ) b b', a.IsVs [fun x => (b x).val] → a'.IsVs [fun x => (b' x).val] →
      ∃ c, fn a a' = .ok c ∧ c.IsVs [fun x => (g b b' x).val])
    (hassoc : ∀ x y z, g (g x y) z = g x (g y z)) {t : Tens ℕ} {l : List (Fin n → Fin n)} (h : t.IsVs (l.map fun f x => (f x).val))
    (hne : l ≠ []) :
    ∃ r lr, t.scanAssoc scan fn = .ok r ∧ scan _ (fun x y => .ok (g x y)) l = .ok lr ∧ r.IsVs (lr.map fun f x => (f x).val) ∧
      lr.length = l.length := by
  obtain ⟨r, lr, h1, h2, h3, h4⟩ := Tens.IsB.scanAssoc (s := [n]) (D := fun f (A : Fin n → Fin n) => ∀ x, f [x.val] = (A x).val) hs
    (fn := fn) (g := g) (fun a a' b b' ha hb => by
      obtain ⟨c, hc, hc'⟩ := hop a a' b b' (isF_iff (l := [b]).2 ha) (isF_iff (l := [b']).2 hb)
      exact ⟨c, hc, isF_iff (l := [g b b']).1 hc'⟩) hassoc (isF_iff.1 h) hne
  exact ⟨r, lr, h1, h2, isF_iff.2 h3, h4⟩

section Value
variable [LinearOrder K] [AddCommMonoid K] [IsOrderedAddMonoid K] [NeZero n] [NeZero m]

theorem parBackward_is {scan : AScan} (hs : ∀ α, IsAssocScan (scan α)) (am : AArgmin K) (inf : K) (M : FSC n m K) {fs : Tens ℕ}
    {Ls LT : Tens K} (hf : fs.IsMs (M.stages.map fun s x u => (s.f x u).val)) (hL : Ls.IsMs (M.stages.map FStage.L)) (hT : LT.IsV M.LT) :
    ∃ us Vs lu lV, tensFscParBackward scan am inf fs Ls LT = .ok (us, Vs) ∧ M.tfParBackward (scan _) (am m) inf = .ok (lu, lV) ∧
      us.IsVs (lu.map fun p x => (p x).val) ∧ Vs.IsVs lV ∧ lu.length = M.stages.length ∧ lV.length = M.stages.length + 1 := by
  obtain ⟨e1, he1, he1'⟩ := initMost_is (inf := inf) hf hL
  obtain ⟨e2, he2, he2'⟩ := initLast_is hT
  obtain ⟨e3, he3, he3'⟩ := he2'.batch
  obtain ⟨e4, he4, he4'⟩ := Tens.IsB.concat (Tens.isMs_iff.1 he1') (Tens.isMs_iff.1 he3')
  obtain ⟨e5, he5, he5'⟩ := he4'.reverse
  obtain ⟨e6, lr, he6, hlr, he6', hlen⟩ := scanMs hs (fn := tensCombVRev) (g := fun x y => tfFscCombV y x)
    (fun a a' b b' ha hb => combV_is (la := [b']) (lb := [b]) hb ha rfl) (fun x y z => (combineV_assoc z y x).symm) (Tens.isMs_iff.2 he5')
    (by simp)
  obtain ⟨e7, he7, he7'⟩ := (Tens.isMs_iff.1 he6').reverse
  obtain ⟨e8, he8, he8'⟩ := Tens.IsMs.selectLast (Tens.isMs_iff.2 he7')
  obtain ⟨e9, he9, he9'⟩ := Tens.IsB.tail (Tens.isVs_iff.1 he8')
  have hl1 : lr.length = M.stages.length + 1 := by rw [hlen]; simp
  have hl2 : ((lr.reverse.map fun e x => e x 0).tail).length = M.stages.length := by simp [hl1]
  obtain ⟨ix, e10, hix, he10, he10'⟩ := gather_step (lf := M.stages.map FStage.f) (Tens.isVs_iff.2 he9')
    (by simpa [List.map_map, Function.comp_def] using hf) (by simp [hl1])
  obtain ⟨e11, he11, he11'⟩ := hL.add he10' (by simp [hl1])
  obtain ⟨e12, he12, he12'⟩ := he11'.argmin am
  refine ⟨e12, e8, (M.stages.zipWith (fun s V x u => s.L x u + V (s.f x u)) (lr.reverse.map (fun e x => e x 0)).tail).map
    (fun Vu x => am m (Vu x)), lr.reverse.map (fun e x => e x 0), ?_, ?_, ?_, he8', ?_, ?_⟩
  · simp only [tensFscParBackward, he1, he2, he3, he4, he5, he6, he7, he8, he9, hix, he10, he11, he12, tens_bind]
    rfl
  · rw [FSC.tfParBackward, hlr]
    rfl
  · convert he12' using 1
    refine List.ext_getElem (by simp [hl1]) fun k h1 h2 => ?_
    simp only [List.getElem_map, List.getElem_zipWith]
  · simp [hl1]
  · simp [hl1]

omit [IsOrderedAddMonoid K] [NeZero n] [NeZero m] in
theorem fwdBwdFirst_is {inf : K} (x0 : Fin n) {L0 : Tens K} {A : Fin n → Fin m → K} (hL : L0.IsM A) :
    ∃ c, tensFwdBwdFirst inf x0 L0 = .ok c ∧ c.IsM (tfFwdBwdFirst inf x0) := by
  obtain ⟨sa, va⟩ := L0
  obtain ⟨h1, h2⟩ := hL
  dsimp only at h1 h2
  subst h1
  have d : Tens.dim (⟨[n, m], va⟩ : Tens K) 0 = .ok n := rfl
  have i1 : (Tens.range n).expandDims (-1) = .ok ⟨[n, 1], fun i => (i.eraseIdx 1).getD 0 0⟩ := rfl
  have i2 : (Tens.const [n] x0.val).expandDims (-1) = .ok ⟨[n, 1], fun _ => x0.val⟩ := rfl
  simp only [tensFwdBwdFirst, d, i1, i2, tens_bind]
  rw [concat_eq (ax := 1) (s := [n, 2]) (by rfl) (by rfl) (by rfl), tens_bind]
  suffices hh : ∀ ix : List ℕ → ℕ, (∀ x, ix [x, 0] = x ∧ ix [x, 1] = x0) →
      ∃ c, (Tens.const [n, n] inf).scatterUpdate ⟨[n, 2], ix⟩ (Tens.const [n] 0) = .ok c ∧ c.IsM (tfFwdBwdFirst inf x0) by
    refine hh _ ?_
    intro x
    simp
  intro ix hix
  have hr : List.range 2 = [0, 1] := rfl
  have hI : ∀ x, ((List.range 2).map fun j => ix ([x] ++ [j])) = [x, x0.val] := by
    intro x
    simp [hr, (hix x).1, (hix x).2]
  have hall : ((allIdx [n]).all fun o => decide (((List.range 2).map fun j => ix (o ++ [j])) ∈ allIdx [n, n])) = true := by
    rw [List.all_eq_true]
    intro o ho
    obtain ⟨x, rfl, hx⟩ := mem_allIdx1.1 ho
    rw [decide_eq_true_eq, hI x]
    exact mem_allIdx2.2 ⟨_, _, rfl, hx, x0.2⟩
  refine ⟨⟨[n, n], (allIdx [n]).foldl (scatterStep ⟨[n, 2], ix⟩ (Tens.const [n] 0)) fun _ => inf⟩, ?_, rfl, ?_⟩
  · exact (if_pos (⟨rfl, rfl⟩ : 2 = 2 ∧ [n] = [n])).trans (if_pos hall)
  · intro x y
    obtain ⟨q1, q2⟩ := scatter_foldl (K := K) ⟨[n, 2], ix⟩ (Tens.const [n] 0) (fun o => (List.range 2).map fun j => ix (o ++ [j]))
      (fun o => rfl) (allIdx [n]) (fun _ => inf) [x.val, y.val]
    rw [tfFwdBwdFirst, Function.update_apply]
    split
    · rename_i h
      subst h
      refine q1 [x.val] (mem_allIdx1.2 ⟨_, rfl, x.2⟩) (hI x) ?_
      intro o ho e
      obtain ⟨x', rfl, _⟩ := mem_allIdx1.1 ho
      rw [hI x'] at e
      simp only [List.cons.injEq] at e
      rw [e.1]
    · rename_i h
      refine q2 ?_
      intro o ho e
      obtain ⟨x', rfl, _⟩ := mem_allIdx1.1 ho
      rw [hI x'] at e
      simp only [List.cons.injEq] at e
      exact h (Fin.ext e.2.1.symm)

theorem parFwdBwd_is {scan : AScan} (hs : ∀ α, IsAssocScan (scan α)) (am : AArgmin K) (inf : K) (M : FSC n m K) (hM : M.stages ≠ [])
    (x0 : Fin n) {fs us : Tens ℕ} {Ls Vs : Tens K} {lu : List (Fin n → Fin m)} {lV : List (Fin n → K)}
    (hf : fs.IsMs (M.stages.map fun s x u => (s.f x u).val)) (hL : Ls.IsMs (M.stages.map FStage.L))
    (hu : us.IsVs (lu.map fun p x => (p x).val)) (hV : Vs.IsVs lV) (hlu : lu.length = M.stages.length)
    (hlV : lV.length = M.stages.length + 1) :
    ∃ mu mx lmu lmx, tensFscParFwdBwd scan am inf x0 fs Ls us Vs = .ok (mu, mx) ∧
      M.tfParFwdBwd (scan _) (am n) inf x0 lu lV = .ok (lmu, lmx) ∧ mu.Is1 (lmu.map Fin.val) ∧ mx.Is1 (lmx.map Fin.val) := by
  obtain ⟨s, l, hsl⟩ := List.exists_cons_of_ne_nil hM
  obtain ⟨e0, he0, he0'⟩ := hL.selectFirst (A := s.L) (l' := l.map FStage.L) (by rw [hsl]; rfl)
  obtain ⟨e1, he1, he1'⟩ := fwdBwdFirst_is (inf := inf) x0 he0'
  obtain ⟨e2, he2, he2'⟩ := initMost_is (inf := inf) hf hL
  obtain ⟨e3, he3, he3'⟩ := he1'.batch
  obtain ⟨e4, he4, he4'⟩ := Tens.IsB.concat (Tens.isMs_iff.1 he3') (Tens.isMs_iff.1 he2')
  obtain ⟨e6, lr, he6, hlr, he6', hlen⟩ := scanMs hs (fn := tensCombV) (g := tfFscCombV)
    (fun a a' b b' ha hb => combV_is (la := [b]) (lb := [b']) ha hb rfl) (fun x y z => combineV_assoc x y z) (Tens.isMs_iff.2 he4')
    (by simp)
  have hl1 : lr.length = M.stages.length + 1 := by rw [hlen]; simp
  obtain ⟨e7, he7, he7'⟩ := he6'.selectMid
  obtain ⟨e8, he8, he8'⟩ := he7'.add hV (by simp [hl1, hlV])
  obtain ⟨e9, he9, he9'⟩ := he8'.argmin am
  have e9e : (List.zipWith (fun A B x => A x + B x) (lr.map fun e => e 0) lV).map (fun A => (am n A).val) =
      (((lr.map fun e => e 0).zipWith (fun Vf V => am n fun x => Vf x + V x) lV).map Fin.val) := by
    refine List.ext_getElem (by simp) fun k h1 h2 => ?_
    simp only [List.getElem_map, List.getElem_zipWith]
  rw [e9e] at he9'
  obtain ⟨e10, he10, he10'⟩ := Tens.IsB.init (Tens.is1_iff.1 he9')
  obtain ⟨e11, he11, he11'⟩ := gather_one hu (li := ((lr.map fun e => e 0).zipWith (fun Vf V => am n fun x => Vf x + V x) lV).dropLast)
    (by rw [List.map_dropLast]; exact Tens.is1_iff.2 he10') (by simp [hl1, hlV, hlu])
  refine ⟨e11, e9, _, _, ?_, ?_, he11', he9'⟩
  · simp only [tensFscParFwdBwd, he0, he1, he2, he3, he4, he6, he7, he8, he9, he10, he11, tens_bind]
    rfl
  · have h1 : M.stages.isEmpty = false := by rw [hsl]; rfl
    have h2 : ¬ (lV.length ≠ M.stages.length + 1 ∨ lu.length ≠ M.stages.length) := by omega
    rw [FSC.tfParFwdBwd, h1, if_neg h2]
    have h3 : scan _ (fun x y => .ok (tfFscCombV x y)) (tfFwdBwdFirst inf x0 :: M.stages.map (tfStageElem inf)) = .ok lr := hlr
    simp only [h3]
    rfl

end Value

theorem fwdMost_is {fs us : Tens ℕ} {st : List (FStage n m K)} {lu : List (Fin n → Fin m)}
    (hf : fs.IsMs (st.map fun s x u => (s.f x u).val)) (hu : us.IsVs (lu.map fun p x => (p x).val)) (hl : lu.length = st.length) :
    ∃ c, tensFscFwdMost fs us = .ok c ∧ c.IsVs ((st.zipWith (fun s p x => s.f x (p x)) lu).map fun f x => (f x).val) := by
  obtain ⟨sa, va⟩ := fs
  obtain ⟨sb, vb⟩ := us
  obtain ⟨h1, h2⟩ := hf
  obtain ⟨h3, h4⟩ := hu
  dsimp only at h1 h2 h3 h4
  rw [List.length_map] at h1 h3
  rw [hl] at h3
  subst h1 h3
  have hv : ∀ k (hk : k < st.length) (x : Fin n) (u : Fin m), va [k, x, u] = (st[k].f x u).val := fun k hk x u => by
    exact (h2 k (by simpa using hk) x u).trans (by simp only [List.getElem_map])
  have hw : ∀ k (hk : k < lu.length) (x : Fin n), vb [k, x] = (lu[k] x).val := fun k hk x => by
    exact (h4 k (by simpa using hk) x).trans (by simp only [List.getElem_map])
  have d0 : Tens.dim (⟨[st.length, n, m], va⟩ : Tens ℕ) 0 = .ok st.length := rfl
  have d1 : Tens.dim (⟨[st.length, n, m], va⟩ : Tens ℕ) 1 = .ok n := rfl
  have r1 := reshape_range (N := n) (s := [1, n]) (by simp)
  have t1 : ∀ w : List ℕ → ℕ, Tens.tile ⟨[1, n], w⟩ [st.length, 1] = .ok ⟨[st.length, n], fun i => w (List.zipWith (· % ·) i [1, n])⟩ :=
    fun w => by simp [Tens.tile]
  have ex : ∀ w : List ℕ → ℕ, Tens.expandDims ⟨[st.length, n], w⟩ (-1) = .ok ⟨[st.length, n, 1], fun i => w (i.eraseIdx 2)⟩ :=
    fun w => rfl
  have hr : List.range 1 = [0] := rfl
  have hr2 : List.range 2 = [0, 1] := rfl
  simp only [tensFscFwdMost, d0, d1, r1, t1, ex, tens_bind]
  suffices hh : ∀ xi : List ℕ → ℕ, (∀ k x, x < n → xi [k, x, 0] = x) →
      ∃ c, (Tens.gatherNd ⟨[st.length, n], vb⟩ ⟨[st.length, n, 1], xi⟩ 1 >>= fun g => g.expandDims (-1) >>= fun uis =>
        Tens.concat ⟨[st.length, n, 1], xi⟩ uis (-1) >>= fun xuis => Tens.gatherNd ⟨[st.length, n, m], va⟩ xuis 1) = .ok c ∧
        c.IsVs ((st.zipWith (fun s p x => s.f x (p x)) lu).map fun f x => (f x).val) by
    refine hh _ ?_
    intro k x hx
    simp [ravel, Nat.mod_eq_of_lt, hx, Nat.mod_one]
  intro xi hxi
  rw [gatherNd_eq (outer := [st.length, n]) (k := 1) (by rfl) (by simp) (by simp) (by simp) ?_, tens_bind]
  swap
  · intro o ho
    obtain ⟨k, x, rfl, hk, hx⟩ := mem_allIdx2.1 ho
    refine mem_allIdx2.2 ⟨k, x, by simp [hr, hxi, hx], hk, hx⟩
  have ex2 : ∀ w : List ℕ → ℕ, Tens.expandDims ⟨[st.length, n] ++ List.drop (1 + 1) [st.length, n], w⟩ (-1) =
    .ok ⟨[st.length, n, 1], fun i => w (i.eraseIdx 2)⟩ := fun w => rfl
  rw [ex2, tens_bind, concat_eq (ax := 2) (s := [st.length, n, 2]) (by rfl) (by rfl) (by rfl), tens_bind]
  suffices hh : ∀ xu : List ℕ → ℕ, (∀ k x, x < n → xu [k, x, 0] = x ∧ xu [k, x, 1] = vb [k, x]) →
      ∃ c, Tens.gatherNd ⟨[st.length, n, m], va⟩ ⟨[st.length, n, 2], xu⟩ 1 = .ok c ∧
        c.IsVs ((st.zipWith (fun s p x => s.f x (p x)) lu).map fun f x => (f x).val) by
    refine hh _ ?_
    intro k x hx
    simp [hr, hxi, hx]
  intro xu hxu
  refine ⟨_, gatherNd_eq (outer := [st.length, n]) (k := 2) (by rfl) (by simp) (by simp) (by simp) ?_, ?_⟩
  · intro o ho
    obtain ⟨k, x, rfl, hk, hx⟩ := mem_allIdx2.1 ho
    refine mem_allIdx3.2 ⟨k, x, vb [k, x], by simp [hr2, hxu, hx], hk, hx, ?_⟩
    rw [hw k (by omega) ⟨x, hx⟩]
    exact Fin.isLt _
  · refine ⟨by simp [hl], fun k hk x => ?_⟩
    have hk' : k < st.length := by simp at hk; omega
    simp only [List.getElem_map, List.getElem_zipWith]
    rw [← hv k hk' x (lu[k] x), ← hw k (by omega) x]
    simp [hr2, hxu]

theorem parForward_is [LinearOrder K] [AddCommMonoid K] [NeZero n] [NeZero m] {scan : AScan} (hs : ∀ α, IsAssocScan (scan α)) (M : FSC n m K)
    (x0 : Fin n) {fs us : Tens ℕ} {lu : List (Fin n → Fin m)}
    (hf : fs.IsMs (M.stages.map fun s x u => (s.f x u).val)) (hu : us.IsVs (lu.map fun p x => (p x).val))
    (hlu : lu.length = M.stages.length) :
    ∃ mu mx lmu lmx, tensFscParForward scan x0 fs us = .ok (mu, mx) ∧ M.tfParForward (scan _) x0 lu = .ok (lmu, lmx) ∧
      mu.Is1 (lmu.map Fin.val) ∧ mx.Is1 (lmx.map Fin.val) := by
  have d1 : Tens.dim fs 1 = .ok n := by rw [Tens.dim, hf.1]; rfl
  obtain ⟨e1, he1, he1'⟩ := (const_isV (n := n) x0.val).batch
  obtain ⟨e2, he2, he2'⟩ := fwdMost_is hf hu hlu
  obtain ⟨e4, he4, he4'⟩ := Tens.IsB.concat (isF_iff (l := [fun _ => x0]).1 he1') (isF_iff.1 he2')
  obtain ⟨e6, lr, he6, hlr, he6', hlen⟩ := scanFs hs (fn := tensCombF) (g := tfFscCombF)
    (fun a a' b b' ha hb => combF_is (la := [b]) (lb := [b']) ha hb rfl) (fun x y z => rfl) (isF_iff.2 he4') (by simp)
  have hl1 : lr.length = M.stages.length + 1 := by rw [hlen]; simp [hlu]
  obtain ⟨e9, he9, he9'⟩ := he6'.selectLast
  have e9e : (lr.map fun f x => (f x).val).map (fun e => e 0) = (lr.map fun e => e 0).map Fin.val := by simp
  rw [e9e] at he9'
  obtain ⟨e10, he10, he10'⟩ := Tens.IsB.init (Tens.is1_iff.1 he9')
  obtain ⟨e11, he11, he11'⟩ := gather_one hu (li := (lr.map fun e => e 0).dropLast)
    (by rw [List.map_dropLast]; exact Tens.is1_iff.2 he10') (by simp [hl1, hlu])
  refine ⟨e11, e9, _, _, ?_, ?_, he11', he9'⟩
  · simp only [tensFscParForward, d1, he1, he2, he4, he6, he9, he10, he11, tens_bind]
    rfl
  · rw [FSC.tfParForward, if_neg (by omega)]
    have h3 : scan _ (fun x y => .ok (tfFscCombF x y)) ((fun _ => x0) :: M.stages.zipWith (fun s p => fun x => s.f x (p x)) lu) = .ok lr := hlr
    simp only [h3]
    rfl

theorem gather_vec {p : ℕ} {V : Tens K} {f : Tens ℕ} {v : Fin p → K} {g : Fin n → Fin m → Fin p} (hV : V.IsV v)
    (hf : f.IsM fun x u => (g x u).val) :
    ∃ ix c, f.expandDims (-1) = .ok ix ∧ V.gatherNd ix 0 = .ok c ∧ c.IsM fun x u => v (g x u) := by
  obtain ⟨sa, va⟩ := V
  obtain ⟨sb, vb⟩ := f
  obtain ⟨h1, h2⟩ := hV
  obtain ⟨h3, h4⟩ := hf
  dsimp only at h1 h2 h3 h4
  subst h1 h3
  have hr : List.range 1 = [0] := rfl
  refine ⟨_, _, rfl, gatherNd_eq (outer := [n, m]) (k := 1) (by rfl) (by simp) (by simp) (by simp) ?_, ?_⟩
  · intro o ho
    obtain ⟨x, u, rfl, hx, hu⟩ := mem_allIdx2.1 ho
    refine mem_allIdx1.2 ⟨vb [x, u], by simp [hr], ?_⟩
    rw [h4 ⟨x, hx⟩ ⟨u, hu⟩]
    exact Fin.isLt _
  · refine ⟨by simp, fun x u => ?_⟩
    show _ = v (g x u)
    rw [← h2 (g x u), ← h4 x u]
    simp [hr]

theorem fscBody_is [LinearOrder K] [AddCommMonoid K] [NeZero m] (am : AArgmin K) {V L : Tens K} {u f : Tens ℕ} {v : Fin n → K} {s : FStage n m K} (hV : V.IsV v) (hf : f.IsM fun x u => (s.f x u).val) (hL : L.IsM s.L) (w : Fin n → Fin m) :
    ∃ V' u' v' w', tensFscBody am (V, u) (f, L) = .ok (V', u') ∧ tfFscBody (am m) (v, w) s = .ok (v', w') ∧ V'.IsV v' ∧
      u'.IsV fun x => (w' x).val := by
  obtain ⟨ix, c, h1, h2, h3⟩ := gather_vec hV hf
  obtain ⟨sa, va⟩ := L
  obtain ⟨sc, vc⟩ := c
  obtain ⟨h4, h5⟩ := hL
  obtain ⟨h6, h7⟩ := h3
  dsimp only at h4 h5 h6 h7
  subst h4 h6
  obtain ⟨g, e, hg⟩ := bin_same2 (f := fun x y : K => x + y) (n := n) (m := m) va vc
  have e3 := Tens.argmin_eq am (t := ⟨[n, m], g⟩) (axis := -1) (a := 1) (n := m) rfl rfl
  have e4 := Tens.reduceMin_eq (t := ⟨[n, m], g⟩) (axis := -1) (a := 1) (n := m) rfl rfl
  have hg' : ∀ x : Fin n, (fun k : Fin m => g ([x.val].insertIdx 1 k.val)) = fun u => s.L x u + v (s.f x u) := by
    intro x
    funext u
    exact (hg x u x.2 u.2).trans (by rw [h5, h7])
  refine ⟨⟨[n], fun i => min1 fun k : Fin m => g (i.insertIdx 1 k)⟩, ⟨[n], fun i => (am m fun k : Fin m => g (i.insertIdx 1 k)).val⟩,
    fun x => min1 fun u => s.L x u + v (s.f x u), fun x => am m fun u => s.L x u + v (s.f x u), ?_, rfl, ?_, ?_⟩
  · simp only [tensFscBody, h1, h2, e, e3, e4, tens_bind]
    rfl
  · exact ⟨rfl, fun x => congrArg min1 (hg' x)⟩
  · exact ⟨rfl, fun x => congrArg (fun q => (am m q).val) (hg' x)⟩

theorem Tens.IsMs.items {t : Tens K} {l : List (Fin n → Fin m → K)} (h : t.IsMs l) :
    ∃ ts, t.items = .ok ts ∧ List.Forall₂ (fun a b => a.IsM b) ts l := by
  obtain ⟨sa, va⟩ := t
  obtain ⟨h1, h2⟩ := h
  dsimp only at h1 h2
  subst h1
  refine ⟨_, rfl, ?_⟩
  rw [List.forall₂_iff_get]
  refine ⟨by simp, fun k hk hk' => ?_⟩
  refine ⟨by simp, fun x y => ?_⟩
  have e := h2 k hk' x y
  simpa using e

theorem Tens.IsVs.items {t : Tens K} {l : List (Fin n → K)} (h : t.IsVs l) :
    ∃ ts, t.items = .ok ts ∧ List.Forall₂ (fun a b => a.IsV b) ts l := by
  obtain ⟨sa, va⟩ := t
  obtain ⟨h1, h2⟩ := h
  dsimp only at h1 h2
  subst h1
  refine ⟨_, rfl, ?_⟩
  rw [List.forall₂_iff_get]
  refine ⟨by simp, fun k hk hk' => ?_⟩
  refine ⟨by simp, fun x => ?_⟩
  have e := h2 k hk' x
  simpa using e

theorem stack_isVs {ts : List (Tens K)} {l : List (Fin n → K)} (h : List.Forall₂ (fun a b => a.IsV b) ts l) (d : List ℕ → K) :
    ∃ t, Tens.stack [n] d ts = .ok t ∧ t.IsVs l := by
  have hl := h.length_eq
  have hall : (ts.all fun t => decide (t.shape = [n])) = true := by
    rw [List.all_eq_true]
    intro t ht
    obtain ⟨i, hi, rfl⟩ := List.getElem_of_mem ht
    exact decide_eq_true (h.get hi (by omega)).1
  refine ⟨_, if_pos hall, by simp [hl], fun k hk x => ?_⟩
  have hk' : k < ts.length := by omega
  have e := (h.get hk' hk).2 x
  simpa [List.getElem?_eq_getElem hk'] using e

theorem scanRev_transfer {α β γ δ : Type} {bA : β → α → Py β} {bB : δ → γ → Py δ} (R : α → γ → Prop) (S : β → δ → Prop)
    (hb : ∀ b d a c, S b d → R a c → ∃ b' d', bA b a = .ok b' ∧ bB d c = .ok d' ∧ S b' d') {la : List α} {lc : List γ}
    (h : List.Forall₂ R la lc) {b : β} {d : δ} (h0 : S b d) :
    ∃ r r', tfScanRev bA b la = .ok r ∧ tfScanRev bB d lc = .ok r' ∧ List.Forall₂ S r.1 r'.1 ∧ S r.2 r'.2 := by
  induction h with
  | nil => exact ⟨_, _, rfl, rfl, .nil, h0⟩
  | @cons a c la lc hac h ih =>
    obtain ⟨r, r', h1, h2, h3, h4⟩ := ih
    obtain ⟨b', d', h5, h6, h7⟩ := hb _ _ _ _ h4 hac
    refine ⟨(b' :: r.1, b'), (d' :: r'.1, d'), ?_, ?_, .cons h7 h3, h7⟩
    · rw [tfScanRev, h1, tens_bind, h5]; rfl
    · rw [tfScanRev, h2, tens_bind, h6]; rfl

theorem forall₂_zip {α β γ δ : Type} {R : α → γ → Prop} {S : β → δ → Prop} {la : List α} {lc : List γ} (h : List.Forall₂ R la lc) :
    ∀ {lb : List β} {ld : List δ}, List.Forall₂ S lb ld →
      List.Forall₂ (fun p q => R p.1 q.1 ∧ S p.2 q.2) (la.zip lb) (lc.zip ld) := by
  induction h with
  | nil => intro lb ld _; simp
  | cons h1 _ ih =>
    intro lb ld h'
    cases h' with
    | nil => simp
    | cons h2 h3 => exact .cons ⟨h1, h2⟩ (ih h3)

theorem seqBackward_is [LinearOrder K] [AddCommMonoid K] [NeZero m] (am : AArgmin K) (M : FSC n m K) {fs : Tens ℕ} {Ls LT : Tens K}
    (hf : fs.IsMs (M.stages.map fun s x u => (s.f x u).val)) (hL : Ls.IsMs (M.stages.map FStage.L)) (hT : LT.IsV M.LT) :
    ∃ us Vs lu lV, tensFscSeqBackward am fs Ls LT = .ok (us, Vs) ∧ M.tfSeqBackward (am m) = .ok (lu, lV) ∧
      us.IsVs (lu.map fun p x => (p x).val) ∧ Vs.IsVs lV ∧ lu.length = M.stages.length ∧ lV.length = M.stages.length + 1 := by
  have d : Tens.dim fs (fs.shape.length - 2) = .ok n := by rw [Tens.dim, hf.1]; rfl
  obtain ⟨fl, h1, h2⟩ := hf.items
  obtain ⟨Ll, h3, h4⟩ := hL.items
  have hz := forall₂_zip h2 h4
  have hz' : List.Forall₂ (fun (p : Tens ℕ × Tens K) (s : FStage n m K) => p.1.IsM (fun x u => (s.f x u).val) ∧ p.2.IsM s.L)
      (fl.zip Ll) M.stages := by
    rw [List.zip_map', List.forall₂_map_right_iff] at hz
    exact hz
  obtain ⟨r, r', h5, h6, h7, h8⟩ := scanRev_transfer (bA := tensFscBody am) (bB := tfFscBody (am m)) _
    (fun (b : Tens K × Tens ℕ) (d : (Fin n → K) × (Fin n → Fin m)) => b.1.IsV d.1 ∧ b.2.IsV fun x => (d.2 x).val)
    (fun b d a c hS hR => by
      obtain ⟨V', u', v', w', e1, e2, e3, e4⟩ := fscBody_is am (u := b.2) hS.1 hR.1 hR.2 d.2
      exact ⟨(V', u'), (v', w'), e1, e2, e3, e4⟩) hz' (b := (LT, Tens.const [n] 0)) (d := (M.LT, fun _ => 0))
    ⟨hT, rfl, fun x => by simp [Tens.const]⟩
  obtain ⟨Vs, h9, h10⟩ := stack_isVs (n := n) (ts := r.1.map Prod.fst) (l := r'.1.map Prod.fst)
    (by rw [List.forall₂_map_left_iff, List.forall₂_map_right_iff]; exact h7.imp fun _ _ h => h.1) LT.val
  obtain ⟨us, h11, h12⟩ := stack_isVs (n := n) (ts := r.1.map Prod.snd) (l := (r'.1.map Prod.snd).map fun p x => (p x).val)
    (by rw [List.forall₂_map_left_iff, List.forall₂_map_right_iff, List.forall₂_map_right_iff]; exact h7.imp fun _ _ h => h.2)
    (Tens.const [n] 0).val
  obtain ⟨e, h13, h14⟩ := hT.batch
  obtain ⟨Vs', h15, h16⟩ := Tens.IsB.concat (Tens.isVs_iff.1 h10) (Tens.isVs_iff.1 h14)
  have hlen : r'.1.length = M.stages.length := by
    rw [← h7.length_eq]
    have : ∀ {l : List (Tens ℕ × Tens K)} {q}, tfScanRev (tensFscBody am) (LT, Tens.const [n] 0) l = .ok q → q.1.length = l.length := by
      intro l
      induction l with
      | nil => intro q hq; cases hq; rfl
      | cons a l ih =>
        intro q hq
        rw [tfScanRev] at hq
        rcases h : tfScanRev (tensFscBody am) (LT, Tens.const [n] 0) l with e | q'
        · rw [h] at hq; cases hq
        · rw [h, tens_bind] at hq
          rcases h' : tensFscBody am q'.2 a with e | b
          · rw [h'] at hq; cases hq
          · rw [h'] at hq; cases hq
            simp [ih h]
    rw [this h5, hz'.length_eq]
  refine ⟨us, Vs', r'.1.map Prod.snd, r'.1.map Prod.fst ++ [M.LT], ?_, ?_, h12, h16, by simp [hlen], by simp [hlen]⟩
  · have hfl : fl.length = Ll.length := by rw [h2.length_eq, h4.length_eq]; simp
    have hsT : LT.shape = [n] := hT.1
    have hsc : (Tens.const [n] 0 : Tens ℕ).shape = [n] := rfl
    simp only [tensFscSeqBackward, d, h1, h3, hfl, h5, tens_bind, hsT, hsc, h9, h11, h13, h15, ne_eq, not_true_eq_false, if_false]
    rfl
  · rw [FSC.tfSeqBackward, h6]
    rfl

theorem fwdBody_is {f u : Tens ℕ} {s : FStage n m K} {p : Fin n → Fin m} (hf : f.IsM fun x u => (s.f x u).val)
    (hu : u.IsV fun x => (p x).val) (x : Fin n) (w : Fin m) (w' : ℕ) :
    tensFscFwdBody (x.val, w') (f, u) = .ok ((tfFscFwdBody (x, w) (s, p)).1.val, (tfFscFwdBody (x, w) (s, p)).2.val) := by
  obtain ⟨sa, va⟩ := f
  obtain ⟨sb, vb⟩ := u
  obtain ⟨h1, h2⟩ := hf
  obtain ⟨h3, h4⟩ := hu
  dsimp only at h1 h2 h3 h4
  subst h1 h3
  have e1 : Tens.select ⟨[n], vb⟩ 0 x.val = .ok ⟨[], fun i => vb (i.insertIdx 0 x.val)⟩ := by
    simp [Tens.select, tfAxis, tens_bind, tens_pure]
  have e2 : Tens.select ⟨[n, m], va⟩ 0 x.val = .ok ⟨[m], fun i => va (i.insertIdx 0 x.val)⟩ := by
    simp [Tens.select, tfAxis, tens_bind, tens_pure]
  have e3 : Tens.select (⟨[m], fun i => va (i.insertIdx 0 x.val)⟩ : Tens ℕ) 0 (p x).val =
      .ok ⟨[], fun i => va ((i.insertIdx 0 (p x).val).insertIdx 0 x.val)⟩ := by
    simp [Tens.select, tfAxis, tens_bind, tens_pure]
  have e4 : vb (([] : List ℕ).insertIdx 0 x.val) = (p x).val := h4 x
  simp only [tensFscFwdBody, e1, e2, tens_bind, e4, e3]
  have e5 : va ((([] : List ℕ).insertIdx 0 (p x).val).insertIdx 0 x.val) = (s.f x (p x)).val := h2 x (p x)
  rw [e5]
  rfl

theorem seqForward_is [NeZero m] (M : FSC n m K) (x0 : Fin n) {fs us : Tens ℕ} {lu : List (Fin n → Fin m)}
    (hf : fs.IsMs (M.stages.map fun s x u => (s.f x u).val)) (hu : us.IsVs (lu.map fun p x => (p x).val))
    (hlu : lu.length = M.stages.length) :
    ∃ lmx lmu, tensFscSeqForward x0 fs us = .ok (lmx.map Fin.val, lmu.map Fin.val) ∧ M.tfSeqForward x0 lu = .ok (lmx, lmu) := by
  obtain ⟨fl, h1, h2⟩ := hf.items
  obtain ⟨ul, h3, h4⟩ := hu.items
  have hz := forall₂_zip (List.forall₂_map_right_iff.1 h2) (List.forall₂_map_right_iff.1 h4)
  have key : ∀ {l : List (Tens ℕ × Tens ℕ)} {l' : List (FStage n m K × (Fin n → Fin m))},
      List.Forall₂ (fun p q => p.1.IsM (fun x u => (q.1.f x u).val) ∧ p.2.IsV fun x => (q.2 x).val) l l' →
      ∀ (x : Fin n) (w : Fin m), tfScanFwdM tensFscFwdBody (x.val, w.val) l =
        .ok ((tfScanFwd tfFscFwdBody (x, w) l').map fun p => (p.1.val, p.2.val)) := by
    intro l l' h
    induction h with
    | nil => intro x w; rfl
    | @cons a b l l' hab h ih =>
      intro x w
      rw [tfScanFwdM, fwdBody_is (s := b.1) (p := b.2) hab.1 hab.2 x w w.val, tens_bind,
        ih (tfFscFwdBody (x, w) (b.1, b.2)).1 (tfFscFwdBody (x, w) (b.1, b.2)).2]
      rfl
  refine ⟨x0 :: (tfScanFwd tfFscFwdBody (x0, 0) (M.stages.zip lu)).map Prod.fst,
    (tfScanFwd tfFscFwdBody (x0, 0) (M.stages.zip lu)).map Prod.snd, ?_, ?_⟩
  · have hfl : fl.length = ul.length := by rw [h2.length_eq, h4.length_eq]; simp [hlu]
    have k := key hz x0 0
    rw [Fin.val_zero] at k
    simp only [tensFscSeqForward, h1, h3, hfl, tens_bind, ne_eq, not_true_eq_false, if_false, k, tens_pure]
    simp [Function.comp_def]
  · rw [FSC.tfSeqForward, if_neg (by omega)]
    rfl

end Verif
