import Verif.Model.ViterbiTensor
import Verif.Proof.FSCTensor
import Verif.Proof.ViterbiTF

/-! Lemmas on the tensor model of `viterbi_tf.py`. -/

namespace Verif

variable {K P : Type} {n m q : ℕ}

theorem Tens.IsV.map {t : Tens P} {v : Fin n → P} (h : t.IsV v) (f : P → K) : (t.map f).IsV fun x => f (v x) :=
  ⟨h.1, fun x => congrArg f (h.2 x)⟩

theorem Tens.IsM.map {t : Tens P} {v : Fin n → Fin m → P} (h : t.IsM v) (f : P → K) : (t.map f).IsM fun x y => f (v x y) :=
  ⟨h.1, fun x y => congrArg f (h.2 x y)⟩

theorem Tens.IsM.transpose {t : Tens P} {v : Fin n → Fin m → P} (h : t.IsM v) : ∃ c, t.transpose = .ok c ∧ c.IsM fun y x => v x y := by
  obtain ⟨sa, va⟩ := t
  obtain ⟨h1, h2⟩ := h
  dsimp only at h1 h2
  subst h1
  exact ⟨_, rfl, rfl, fun y x => h2 x y⟩

theorem Tens.IsV.argmin (am : AArgmin K) [NeZero n] {t : Tens K} {v : Fin n → K} (h : t.IsV v) {axis : ℤ} (ha : tfAxis 1 axis = .ok 0) :
    ∃ c, t.argmin am axis = .ok c ∧ c.val [] = (am n v).val := by
  obtain ⟨sa, va⟩ := t
  obtain ⟨h1, h2⟩ := h
  dsimp only at h1 h2
  subst h1
  refine ⟨_, Tens.argmin_eq am (a := 0) (n := n) ha (by rfl), ?_⟩
  have e : (fun j : Fin n => va (([] : List ℕ).insertIdx 0 j.val)) = v := by
    funext j
    exact h2 j
  exact congrArg (fun w => (am n w).val) e

/-- `t[k]`. -/
theorem Tens.IsVs.at {t : Tens K} {l : List (Fin n → K)} (h : t.IsVs l) {k : ℕ} (hk : k < l.length) :
    ∃ c, t.select 0 k = .ok c ∧ c.IsV l[k] := by
  obtain ⟨sa, va⟩ := t
  obtain ⟨h1, h2⟩ := h
  dsimp only at h1 h2
  subst h1
  refine ⟨⟨[n], fun i => va (i.insertIdx 0 k)⟩, ?_, rfl, fun x => h2 k hk x⟩
  simp [Tens.select, tens_bind, tfAxis, tens_pure, hk]

theorem Tens.IsVs.last {t : Tens K} {l : List (Fin n → K)} (h : t.IsVs l) {v : Fin n → K} (hv : l.getLast? = some v) :
    ∃ c, t.last = .ok c ∧ c.IsV v := by
  have hl : l ≠ [] := by rintro rfl; cases hv
  have hp : 0 < l.length := List.length_pos_iff.2 hl
  obtain ⟨c, hc, hc'⟩ := h.at (k := l.length - 1) (by omega)
  have e : l[l.length - 1] = v := by
    rw [List.getLast?_eq_getElem?, List.getElem?_eq_getElem (by omega)] at hv
    exact Option.some.inj hv
  rw [e] at hc'
  refine ⟨c, ?_, hc'⟩
  rw [Tens.last, h.1]
  rcases hn : l.length with _ | k
  · omega
  · rw [hn] at hc
    exact hc

theorem Tens.Is1.numbers {t : Tens K} {l : List K} (h : t.Is1 l) : t.numbers = .ok l := by
  obtain ⟨sa, va⟩ := t
  obtain ⟨h1, h2⟩ := h
  dsimp only at h1 h2
  subst h1
  have : Tens.numbers ⟨[l.length], va⟩ = .ok ((List.range l.length).map fun b => va [b]) := by
    simp [Tens.numbers, Tens.items, tens_bind, tens_pure, Function.comp_def]
  rw [this]
  refine congrArg Except.ok (List.ext_getElem (by simp) fun k h3 h4 => ?_)
  simpa using h2 k h4

section Value
variable [LinearOrder K] [AddCommMonoid K] [NeZero n]

/-- The step of `HMM.tfSeqForward`. -/
def vitStep (am : AArgmin K) (nl : P → K) (H : HMM n q P) (st : (Fin n → K) × (Fin n → Fin n)) (y : Fin q) : (Fin n → K) × (Fin n → Fin n) :=
  (fun x => min1 fun j => nl (H.Po x y) + nl (H.Pi j x) + st.1 j, fun x => am n fun j => nl (H.Po x y) + nl (H.Pi j x) + st.1 j)

theorem vitBody_is (am : AArgmin K) (nl : P → K) (H : HMM n q P) {Pi Po V : Tens K} {u : Tens ℕ} (hPi : Pi.IsM fun x y => nl (H.Pi x y))
    (hPo : Po.IsM fun x y => nl (H.Po x y)) {v : Fin n → K} (hV : V.IsV v) (w : Fin n → Fin n) (y : Fin q) :
    ∃ V' u', tensVitBody am Pi Po (V, u) y.val = .ok (V', u') ∧ V'.IsV (vitStep am nl H (v, w) y).1 ∧
      u'.IsV fun x => ((vitStep am nl H (v, w) y).2 x).val := by
  obtain ⟨s1, v1⟩ := Pi
  obtain ⟨s2, v2⟩ := Po
  obtain ⟨s3, v3⟩ := V
  obtain ⟨h1, h2⟩ := hPi
  obtain ⟨h3, h4⟩ := hPo
  obtain ⟨h5, h6⟩ := hV
  dsimp only at h1 h2 h3 h4 h5 h6
  subst h1 h3 h5
  have e1 : Tens.select ⟨[n, q], v2⟩ 1 y.val = .ok ⟨[n], fun i => v2 (i.insertIdx 1 y.val)⟩ := by
    simp [Tens.select, tens_bind, tfAxis, tens_pure]
  have e2 : ∀ g : List ℕ → K, Tens.expandDims ⟨[n], g⟩ 0 = .ok ⟨[1, n], fun i => g (i.eraseIdx 0)⟩ := fun _ => rfl
  have e3 : Tens.expandDims ⟨[n], v3⟩ (-1) = .ok ⟨[n, 1], fun i => v3 (i.eraseIdx 1)⟩ := rfl
  simp only [tensVitBody, e1, e2, e3, tens_bind]
  rw [Tens.bin_eq (s := [n, n]) (by simp [padShape]) (by simp [padShape, one_or])]
  simp only [tens_bind]
  rw [Tens.bin_eq (s := [n, n]) (by simp [padShape]) (by simp [padShape, one_or])]
  simp only [tens_bind]
  rw [Tens.argmin_eq am (a := 0) (n := n) (by rfl) (by rfl), Tens.reduceMin_eq (n := n) (a := 0) (by rfl) (by rfl)]
  refine ⟨_, _, rfl, ⟨rfl, fun x => ?_⟩, ⟨rfl, fun x => ?_⟩⟩
  · refine congrArg min1 ?_
    funext j
    show _ = nl (H.Po x y) + nl (H.Pi j x) + v j
    rw [← h2 j x, ← h4 x y, ← h6 j]
    simp [bcastIdx, padShape, bc_lt]
  · refine congrArg (fun w => (am n w).val) ?_
    funext j
    show _ = nl (H.Po x y) + nl (H.Pi j x) + v j
    rw [← h2 j x, ← h4 x y, ← h6 j]
    simp [bcastIdx, padShape, bc_lt]

theorem tfSeqForward_scan (am : AArgmin K) (nl : P → K) (H : HMM n q P) (ys : List (Fin q)) :
    H.tfSeqForward (am n) nl ys = ((tfScanFwd (vitStep am nl H) ((fun x => nl (H.prior x)), fun _ => 0) ys).map Prod.snd,
      (fun x => nl (H.prior x)) :: (tfScanFwd (vitStep am nl H) ((fun x => nl (H.prior x)), fun _ => 0) ys).map Prod.fst) := by
  have key : ∀ (ys : List (Fin q)) (V : Fin n → K) (w : Fin n → Fin n) (a : List (Fin n → Fin n)) (b : List (Fin n → K)),
      (ys.foldl (fun (st : (Fin n → K) × List (Fin n → Fin n) × List (Fin n → K)) y =>
        let psi := fun j x => nl (H.Po x y) + nl (H.Pi j x)
        let temp := fun j x => psi j x + st.1 j
        let u := fun x => am n fun j => temp j x
        let V := fun x => min1 fun j => temp j x
        (V, st.2.1 ++ [u], st.2.2 ++ [V])) (V, a, b)).2 =
      (a ++ (tfScanFwd (vitStep am nl H) (V, w) ys).map Prod.snd, b ++ (tfScanFwd (vitStep am nl H) (V, w) ys).map Prod.fst) := by
    intro ys
    induction ys with
    | nil => intro V w a b; simp [tfScanFwd]
    | cons y ys ih =>
      intro V w a b
      rw [List.foldl_cons, ih _ (vitStep am nl H (V, w) y).2]
      simp [tfScanFwd, vitStep]
  have k := key ys (fun x => nl (H.prior x)) (fun _ => 0) [] []
  unfold HMM.tfSeqForward
  dsimp only
  rw [k]
  simp

theorem vitSeqForward_is (am : AArgmin K) (nl : P → K) (H : HMM n q P) {prior Pi Po : Tens P} {yt : Tens ℕ} {ys : List (Fin q)}
    (hp : prior.IsV H.prior) (hPi : Pi.IsM H.Pi) (hPo : Po.IsM H.Po) (hy : yt.Is1 (ys.map Fin.val)) :
    ∃ us Vs, tensVitSeqForward am nl prior Pi Po yt = .ok (us, Vs) ∧
      us.IsVs ((H.tfSeqForward (am n) nl ys).1.map fun p x => (p x).val) ∧ Vs.IsVs (H.tfSeqForward (am n) nl ys).2 := by
  have d : Tens.dim Pi 0 = .ok n := by rw [Tens.dim, hPi.1]; rfl
  have key : ∀ (ys : List (Fin q)) (V : Tens K) (u : Tens ℕ) (v : Fin n → K) (w : Fin n → Fin n), V.IsV v →
      ∃ r, tfScanFwdM (tensVitBody am (Pi.map nl) (Po.map nl)) (V, u) (ys.map Fin.val) = .ok r ∧
        List.Forall₂ (fun (a : Tens K × Tens ℕ) (b : (Fin n → K) × (Fin n → Fin n)) => a.1.IsV b.1 ∧ a.2.IsV fun x => (b.2 x).val) r
          (tfScanFwd (vitStep am nl H) (v, w) ys) := by
    intro ys
    induction ys with
    | nil => intro V u v w _; exact ⟨[], rfl, .nil⟩
    | cons y ys ih =>
      intro V u v w hV
      obtain ⟨V', u', h1, h2, h3⟩ := vitBody_is am nl H (hPi.map nl) (hPo.map nl) (u := u) hV w y
      obtain ⟨r, h4, h5⟩ := ih V' u' _ (vitStep am nl H (v, w) y).2 h2
      refine ⟨(V', u') :: r, ?_, .cons ⟨h2, h3⟩ h5⟩
      rw [List.map_cons, tfScanFwdM, h1, tens_bind, h4]
      rfl
  have hV0 := hp.map nl
  obtain ⟨r, h1, h2⟩ := key ys (prior.map nl) (Tens.const [n] 0) _ (fun _ => 0) hV0
  obtain ⟨Vs, h9, h10⟩ := stack_isVs (n := n) (ts := r.map Prod.fst)
    (by rw [List.forall₂_map_left_iff]; exact (List.forall₂_map_right_iff (f := Prod.fst)).2 (h2.imp fun _ _ h => h.1)) (prior.map nl).val
  obtain ⟨us, h11, h12⟩ := stack_isVs (n := n) (ts := r.map Prod.snd)
    (l := ((tfScanFwd (vitStep am nl H) ((fun x => nl (H.prior x)), fun _ => 0) ys).map Prod.snd).map fun p x => (p x).val)
    (by rw [List.forall₂_map_left_iff, List.forall₂_map_right_iff, List.forall₂_map_right_iff]; exact h2.imp fun _ _ h => h.2)
    (Tens.const [n] 0).val
  obtain ⟨e, h13, h14⟩ := hV0.batch
  obtain ⟨Vs', h15, h16⟩ := Tens.IsB.concat (Tens.isVs_iff.1 h14) (Tens.isVs_iff.1 h10)
  rw [tfSeqForward_scan]
  refine ⟨us, Vs', ?_, h12, h16⟩
  have hsT : (prior.map nl).shape = [n] := hV0.1
  have hsc : (Tens.const [n] 0 : Tens ℕ).shape = [n] := rfl
  simp only [tensVitSeqForward, d, hy.numbers, h1, tens_bind, hsT, hsc, h9, h11, h13, h15]
  rfl

theorem vitSeqBackward_is (am : AArgmin K) {us : Tens ℕ} {VT : Tens K} {lu : List (Fin n → Fin n)} {v : Fin n → K}
    (hu : us.IsVs (lu.map fun p x => (p x).val)) (hV : VT.IsV v) :
    tensVitSeqBackward am us VT = .ok ((tfSeqBackward (am n) lu v).map Fin.val) := by
  obtain ⟨c, h1, h2⟩ := hV.argmin am (axis := 0) rfl
  obtain ⟨ts, h3, h4⟩ := hu.items
  have h5 := List.forall₂_map_right_iff.1 h4
  have key : ∀ {ts : List (Tens ℕ)} {lu : List (Fin n → Fin n)}, List.Forall₂ (fun a b => a.IsV fun x => (b x).val) ts lu → ∀ x : Fin n,
      tfScanRev tensVitBwBody x.val ts = .ok ((lu.foldr (fun u (st : Fin n × List (Fin n)) => (u st.1, u st.1 :: st.2)) (x, [])).2.map Fin.val,
        (lu.foldr (fun u (st : Fin n × List (Fin n)) => (u st.1, u st.1 :: st.2)) (x, [])).1.val) := by
    intro ts lu h x
    induction h with
    | nil => rfl
    | @cons a b ts lu hab h ih =>
      rw [tfScanRev, ih, tens_bind]
      obtain ⟨sa, va⟩ := a
      obtain ⟨g1, g2⟩ := hab
      dsimp only at g1 g2
      subst g1
      have e1 : ∀ z : Fin n, tensVitBwBody z.val ⟨[n], va⟩ = .ok (b z).val := by
        intro z
        simp only [tensVitBwBody, Tens.select]
        simp [tfAxis, tens_bind, tens_pure, g2 z]
      dsimp only
      rw [e1, tens_bind]
      rfl
  rw [tensVitSeqBackward, h1, tens_bind, h3, tens_bind, h2, key h5, tens_bind]
  simp [tfSeqBackward, tens_pure]

omit [LinearOrder K] [NeZero n] in
theorem vitElems_is (nl : P → K) (H : HMM n q P) {Pi Po : Tens P} {yt : Tens ℕ} {ys : List (Fin q)} (hPi : Pi.IsM H.Pi)
    (hPo : Po.IsM H.Po) (hy : yt.Is1 (ys.map Fin.val)) :
    ∃ c, tensVitElems nl Pi Po yt = .ok c ∧ c.IsMs (ys.map fun y j x => nl (H.Pi j x) + nl (H.Po x y)) := by
  obtain ⟨Pt, t1, t2⟩ := hPo.transpose
  replace t2 := t2.map nl
  have t3 := hPi.map nl
  rw [tensVitElems]
  simp only [t1, tens_bind]
  generalize Pt.map nl = PT at t2
  generalize Pi.map nl = PI at t3
  obtain ⟨s1, v1⟩ := PI
  obtain ⟨s2, v2⟩ := PT
  obtain ⟨s3, v3⟩ := yt
  obtain ⟨h1, h2⟩ := t3
  obtain ⟨h3, h4⟩ := t2
  obtain ⟨h5, h6⟩ := hy
  dsimp only at h1 h2 h3 h4 h5 h6
  rw [List.length_map] at h5
  subst h1 h3 h5
  have hv : ∀ k (hk : k < ys.length), v3 [k] = (ys[k]).val := fun k hk => by
    exact (h6 k (by simpa using hk)).trans (by simp only [List.getElem_map])
  have hr : List.range 1 = [0] := rfl
  have e1 : Tens.expandDims ⟨[n, n], v1⟩ 0 = .ok ⟨[1, n, n], fun i => v1 (i.eraseIdx 0)⟩ := rfl
  have e2 : Tens.expandDims ⟨[ys.length], v3⟩ (-1) = .ok ⟨[ys.length, 1], fun i => v3 (i.eraseIdx 1)⟩ := rfl
  have e3 : ∀ g : List ℕ → K, Tens.expandDims ⟨[ys.length] ++ List.drop (0 + 1) [q, n], g⟩ (-2) =
    .ok ⟨[ys.length, 1, n], fun i => g (i.eraseIdx 1)⟩ := fun _ => rfl
  rw [Tens.gather, e1, e2, tens_bind, tens_bind, gatherNd_eq (outer := [ys.length]) (k := 1) (by rfl) (by simp) (by simp) (by simp) ?_, tens_bind,
    e3, tens_bind, Tens.bin_eq (s := [ys.length, n, n]) (by simp [padShape]) (by simp [padShape, one_or])]
  · refine ⟨_, rfl, by simp, fun k hk x y => ?_⟩
    rw [List.length_map] at hk
    simp only [List.getElem_map]
    rw [← h2 x y, ← h4 ys[k] y, ← hv k hk]
    simp [bcastIdx, padShape, bc_lt, hr, hk]
  · intro o ho
    obtain ⟨k, rfl, hk⟩ := mem_allIdx1.1 ho
    refine mem_allIdx1.2 ⟨v3 [k], by simp [hr], ?_⟩
    rw [hv k hk]
    exact Fin.isLt _

omit [LinearOrder K] [NeZero n] in
theorem vitFwInit_is (nl : P → K) (H : HMM n q P) {prior Pi Po : Tens P} {yt : Tens ℕ} {ys : List (Fin q)} (hp : prior.IsV H.prior)
    (hPi : Pi.IsM H.Pi) (hPo : Po.IsM H.Po) (hy : yt.Is1 (ys.map Fin.val)) :
    ∃ c, tensVitFwInit nl prior Pi Po yt = .ok c ∧ c.IsMs (H.tfParForwardInit nl ys) := by
  obtain ⟨e, h1, h2⟩ := vitElems_is nl H hPi hPo hy
  have d : Tens.dim prior 0 = .ok n := by rw [Tens.dim, hp.1]; rfl
  have h3 := hp.map nl
  have ti : ∃ e0 t, (prior.map nl).expandDims (-2) = .ok e0 ∧ e0.tile [n, 1] = .ok t ∧ t.IsM fun (_ x : Fin n) => nl (H.prior x) := by
    generalize prior.map nl = pr at h3
    obtain ⟨sa, va⟩ := pr
    obtain ⟨g1, g2⟩ := h3
    dsimp only at g1 g2
    subst g1
    have ex : Tens.expandDims ⟨[n], va⟩ (-2) = .ok ⟨[1, n], fun i => va (i.eraseIdx 0)⟩ := rfl
    refine ⟨_, ⟨[n, n], fun i => va ((List.zipWith (· % ·) i [1, n]).eraseIdx 0)⟩, ex, by simp [Tens.tile], rfl, fun x y => ?_⟩
    simpa [Nat.mod_eq_of_lt] using g2 y
  obtain ⟨e0, t, h4, h5, h6⟩ := ti
  obtain ⟨t', h7, h8⟩ := h6.batch
  obtain ⟨c, h9, h10⟩ := Tens.IsB.concat (Tens.isMs_iff.1 h8) (Tens.isMs_iff.1 h2)
  refine ⟨c, ?_, h10⟩
  simp only [tensVitFwInit, h4, d, h5, h1, h7, h9, tens_bind]

/-- `Ls + tf.expand_dims(Vs[:-1], -1)` and the minimisers over the first index. -/
theorem vitArgmin_is (am : AArgmin K) {Ls V : Tens K} {lL : List (Fin n → Fin n → K)} {lV : List (Fin n → K)} (hL : Ls.IsMs lL)
    (hV : V.IsVs lV) (hl : lL.length = lV.length) :
    ∃ e s u, V.expandDims (-1) = .ok e ∧ Ls.bin (· + ·) e = .ok s ∧ s.argmin am (-2) = .ok u ∧
      u.IsVs (((lL.zipWith (fun L V => fun j x => L j x + V j) lV).map (fun Vu x => am n fun j => Vu j x)).map fun p x => (p x).val) := by
  obtain ⟨s1, v1⟩ := Ls
  obtain ⟨s2, v2⟩ := V
  obtain ⟨h1, h2⟩ := hL
  obtain ⟨h3, h4⟩ := hV
  dsimp only at h1 h2 h3 h4
  subst h1 h3
  have ex : Tens.expandDims ⟨[lV.length, n], v2⟩ (-1) = .ok ⟨[lV.length, n, 1], fun i => v2 (i.eraseIdx 2)⟩ := rfl
  refine ⟨_, _, _, ex, Tens.bin_eq (s := [lV.length, n, n]) (by simp [padShape, hl]) (by simp [padShape, hl, eq_comm]),
    Tens.argmin_eq am (a := 1) (n := n) (by rfl) (by rfl), by simp [hl], fun k hk x => ?_⟩
  have hk' : k < lV.length := by simp at hk; omega
  have hk2 : k < lL.length := by omega
  simp only [List.getElem_map, List.getElem_zipWith]
  refine congrArg (fun w => (am n w).val) ?_
  funext j
  rw [← h2 k hk2 j x, ← h4 k hk' j]
  simp [bcastIdx, padShape, bc_lt, hk', hl]

theorem vitParForward_is [IsOrderedAddMonoid K] {scan : AScan} (hs : ∀ α, IsAssocScan (scan α)) (am : AArgmin K) (nl : P → K) (H : HMM n q P)
    {prior Pi Po : Tens P} {yt : Tens ℕ} {ys : List (Fin q)} (hp : prior.IsV H.prior) (hPi : Pi.IsM H.Pi) (hPo : Po.IsM H.Po)
    (hy : yt.Is1 (ys.map Fin.val)) :
    ∃ us Vs lu lV, tensVitParForward scan am nl prior Pi Po yt = .ok (us, Vs) ∧ H.tfParForward (scan _) (am n) nl ys = .ok (lu, lV) ∧
      us.IsVs (lu.map fun p x => (p x).val) ∧ Vs.IsVs lV ∧ lu.length = ys.length ∧ lV.length = ys.length + 1 := by
  obtain ⟨e1, h1, h1'⟩ := vitFwInit_is nl H hp hPi hPo hy
  obtain ⟨e2, lr, h2, hlr, h2', hlen⟩ := scanMs hs (fn := tensCombV) (g := combineV)
    (fun a a' b b' ha hb => combV_is (la := [b]) (lb := [b']) ha hb rfl) (fun x y z => combineV_assoc x y z) h1'
    (by simp [HMM.tfParForwardInit])
  have hl1 : lr.length = ys.length + 1 := by rw [hlen]; simp [HMM.tfParForwardInit]
  obtain ⟨e3, h3, h3'⟩ := Tens.IsB.tail (Tens.isMs_iff.1 h1')
  obtain ⟨e4, h4, h4'⟩ := h2'.selectMid
  obtain ⟨e5, h5, h5'⟩ := Tens.IsB.init (Tens.isVs_iff.1 h4')
  obtain ⟨e6, e7, e8, h6, h7, h8, h8'⟩ := vitArgmin_is am (Tens.isMs_iff.2 h3') (Tens.isVs_iff.2 h5')
    (by simp [HMM.tfParForwardInit, hl1])
  refine ⟨e8, e4, _, _, ?_, ?_, h8', h4', ?_, ?_⟩
  · simp only [tensVitParForward, h1, h2, h3, h4, h5, h6, h7, h8, tens_bind]
    rfl
  · rw [HMM.tfParForward, hlr]
    rfl
  · simp [HMM.tfParForwardInit, hl1]
  · simp [hl1]

theorem vitParBackward_is {scan : AScan} (hs : ∀ α, IsAssocScan (scan α)) (am : AArgmin K) {us : Tens ℕ} {VT : Tens K}
    {lu : List (Fin n → Fin n)} {v : Fin n → K} (hu : us.IsVs (lu.map fun p x => (p x).val)) (hV : VT.IsV v) :
    ∃ xs lx, tensVitParBackward scan am us VT = .ok xs ∧ tfParBackward (scan _) (am n) lu v = .ok lx ∧ xs.Is1 (lx.map Fin.val) := by
  obtain ⟨c, h1, h2⟩ := hV.argmin am (axis := 0) rfl
  have d : Tens.dim VT 0 = .ok n := by rw [Tens.dim, hV.1]; rfl
  obtain ⟨e1, h3, h3'⟩ := (const_isV (n := n) (am n v).val).batch
  obtain ⟨e2, h4, h4'⟩ := Tens.IsB.concat (isF_iff.1 hu) (isF_iff (l := [fun _ => am n v]).1 h3')
  obtain ⟨e3, h5, h5'⟩ := h4'.reverse
  obtain ⟨e4, lr, h6, hlr, h6', hlen⟩ := scanFs hs (fn := tensCombF) (g := combineF)
    (fun a a' b b' ha hb => combF_is (la := [b]) (lb := [b']) ha hb rfl) (fun x y z => rfl) (isF_iff.2 h5') (by simp)
  obtain ⟨e5, h7, h7'⟩ := Tens.IsB.reverse (isF_iff.1 h6')
  obtain ⟨e6, h8, h8'⟩ := (isF_iff.2 h7').selectLast
  refine ⟨e6, lr.reverse.map fun e => e 0, ?_, ?_, ?_⟩
  · simp only [tensVitParBackward, tensVitBwInit, h1, h2, d, h3, h4, h5, h6, h7, h8, tens_bind]
  · rw [tfParBackward, hlr]
    rfl
  · convert h8' using 1
    rw [List.map_map, List.map_map]
    rfl

theorem vitParBwFw_is [IsOrderedAddMonoid K] {scan : AScan} (hs : ∀ α, IsAssocScan (scan α)) (am : AArgmin K) (nl : P → K) (H : HMM n q P)
    {prior Pi Po : Tens P} {yt : Tens ℕ} {ys : List (Fin q)} (hp : prior.IsV H.prior) (hPi : Pi.IsM H.Pi) (hPo : Po.IsM H.Po)
    (hy : yt.Is1 (ys.map Fin.val)) {Vs : Tens K} {lV : List (Fin n → K)} (hV : Vs.IsVs lV) (hl : lV.length = ys.length + 1) :
    ∃ xs Vf lx lf, tensVitParBwFw scan am nl prior Pi Po yt Vs = .ok (xs, Vf) ∧ H.tfParBwFw (scan _) (am n) nl ys lV = .ok (lx, lf) ∧
      xs.Is1 (lx.map Fin.val) ∧ Vf.IsVs lf := by
  obtain ⟨e1, h1, h1'⟩ := vitElems_is nl H hPi hPo hy
  have d : Tens.dim prior 0 = .ok n := by rw [Tens.dim, hp.1]; rfl
  have h0 : (Tens.const [n, n] (0 : K)).IsM fun (_ _ : Fin n) => 0 := ⟨rfl, fun _ _ => rfl⟩
  obtain ⟨e2, h2, h2'⟩ := h0.batch
  obtain ⟨e3, h3, h3'⟩ := Tens.IsB.concat (Tens.isMs_iff.1 h1') (Tens.isMs_iff.1 h2')
  obtain ⟨e4, h4, h4'⟩ := h3'.reverse
  obtain ⟨e5, lr, h5, hlr, h5', hlen⟩ := scanMs hs (fn := tensCombVRev) (g := fun x y => combineV y x)
    (fun a a' b b' ha hb => combV_is (la := [b']) (lb := [b]) hb ha rfl) (fun x y z => (combineV_assoc z y x).symm) (Tens.isMs_iff.2 h4')
    (by simp)
  have hl1 : lr.length = ys.length + 1 := by rw [hlen]; simp
  obtain ⟨e6, h6, h6'⟩ := (Tens.isMs_iff.1 h5').reverse
  obtain ⟨e7, h7, h7'⟩ := Tens.IsMs.selectLast (Tens.isMs_iff.2 h6')
  obtain ⟨e8, h8, h8'⟩ := h7'.add hV (by simp [hl1, hl])
  obtain ⟨e9, h9, h9'⟩ := h8'.argmin am
  refine ⟨e9, e7, (lr.reverse.map fun e x => e x 0).zipWith (fun Vf V => am n fun x => Vf x + V x) lV, _, ?_, ?_, ?_, h7'⟩
  · simp only [tensVitParBwFw, tensVitBwFwInit, d, h1, h2, h3, h4, h5, h6, h7, h8, h9, tens_bind]
    rfl
  · have hlr' : scan _ (fun Vjk Vij => .ok (combineV Vij Vjk)) (ys.map (H.tfElem nl) ++ [fun _ _ => 0]).reverse = .ok lr := hlr
    rw [HMM.tfParBwFw, hlr']
    rfl
  · convert h9' using 1
    refine List.ext_getElem (by simp) fun k g1 g2 => ?_
    simp only [List.getElem_map, List.getElem_zipWith]

end Value

end Verif
