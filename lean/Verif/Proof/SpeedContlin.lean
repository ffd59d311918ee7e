import Verif.Model.SpeedContlin
import Verif.Proof.CLQTTFPar
import Verif.Proof.SpeedItems

/-!
Helper lemmas for C83: the reported error, lengths and last block of the parallel TensorFlow backward pass.
-/

namespace Verif

open Matrix

variable {n m : ℕ} {K : Type} [Field K] [LinearOrder K]

theorem contSpeed_eq {α β : Type} {n_iter : ℕ} (hn : n_iter ≠ 0) {run : Py α} {ref : Py β} (diff : α → β → Py K) {r : α} {r' : β}
    (h : run = .ok r) (h' : ref = .ok r') : contSpeed n_iter run ref diff = diff r r' := by
  subst h h'
  unfold contSpeed
  have hl : ∀ (l : List ℕ), l.foldlM (fun (_ : α) (_ : ℕ) => (Except.ok r : Py α)) r = .ok r := by
    intro l
    induction l with
    | nil => rfl
    | cons a l ih => rw [List.foldlM_cons]; exact ih
  rw [py_ok_bind, hl, py_ok_bind, if_neg hn]
  rfl

theorem contSpeed_zero {α β : Type} {run : Py α} {ref : Py β} (diff : α → β → Py K) {r : α} (h : run = .ok r) :
    contSpeed 0 run ref diff = .error .zeroDivisionError := by
  subst h
  rfl

theorem contSpeed_error {α β : Type} {n_iter : ℕ} {run : Py α} {ref : Py β} (diff : α → β → Py K) {e : PyErr} (h : run = .error e) :
    contSpeed n_iter run ref diff = .error e := by
  subst h
  rfl

theorem contSpeed_ok {α β : Type} {n_iter : ℕ} {run : Py α} {ref : Py β} (diff : α → β → Py K) {e : K}
    (h : contSpeed n_iter run ref diff = .ok e) : ∃ r r', run = .ok r ∧ ref = .ok r' ∧ diff r r' = .ok e ∧ n_iter ≠ 0 := by
  cases hr : run with
  | error e => rw [contSpeed_error diff hr] at h; cases h
  | ok r =>
    rcases Nat.eq_zero_or_pos n_iter with rfl | hn
    · rw [contSpeed_zero diff hr] at h; cases h
    · cases hr' : ref with
      | error e' =>
        exfalso
        subst hr hr'
        unfold contSpeed at h
        have hl : ∀ (l : List ℕ), l.foldlM (fun (_ : α) (_ : ℕ) => (Except.ok r : Py α)) r = .ok r := by
          intro l
          induction l with
          | nil => rfl
          | cons a l ih => rw [List.foldlM_cons]; exact ih
        rw [py_ok_bind, hl, py_ok_bind, if_neg hn.ne'] at h
        cases h
      | ok r' => exact ⟨r, r', rfl, rfl, by rw [← contSpeed_eq hn.ne' diff hr hr']; exact h, hn.ne'⟩

theorem foldl_max_mem (es : List K) : ∀ e : K, (es.foldl max e ∈ e :: es) ∧ ∀ a ∈ e :: es, a ≤ es.foldl max e := by
  induction es with
  | nil => intro e; simp
  | cons b es ih =>
    intro e
    obtain ⟨h1, h2⟩ := ih (max e b)
    rw [List.foldl_cons]
    refine ⟨?_, fun a ha => ?_⟩
    · rcases List.mem_cons.1 h1 with h1 | h1
      · rw [h1]
        rcases max_choice e b with h3 | h3 <;> simp [h3]
      · simp [h1]
    · have h3 := h2 (max e b) (by simp)
      simp only [List.mem_cons] at ha
      rcases ha with rfl | rfl | ha
      · exact (le_max_left _ _).trans h3
      · exact (le_max_right _ _).trans h3
      · exact h2 a (by simp [ha])

theorem tfMaxAbsMat_ok [NeZero n] {As Bs : List (Matrix (Fin n) (Fin n) K)} (h : As.length = Bs.length) (hne : As ≠ []) :
    ∃ e, tfMaxAbsMat As Bs = .ok e ∧ (∀ (k : ℕ) A B, As[k]? = some A → Bs[k]? = some B → ∀ i j, |A i j - B i j| ≤ e) ∧
      ∃ (k : ℕ) (A B : Matrix (Fin n) (Fin n) K) (i j : Fin n), As[k]? = some A ∧ Bs[k]? = some B ∧ e = |A i j - B i j| := by
  unfold tfMaxAbsMat
  rw [if_neg (by simpa using h)]
  dsimp only
  have hmem : ∀ e, e ∈ ((As.zip Bs).flatMap fun p => (List.finRange n).flatMap fun i => (List.finRange n).map fun j =>
        |p.1 i j - p.2 i j|) ↔
      ∃ (k : ℕ) (A B : Matrix (Fin n) (Fin n) K) (i j : Fin n), As[k]? = some A ∧ Bs[k]? = some B ∧ e = |A i j - B i j| := by
    intro e
    simp only [List.mem_flatMap, List.mem_map, List.mem_finRange, true_and]
    constructor
    · rintro ⟨⟨R, V⟩, h1, i, j, rfl⟩
      obtain ⟨k, hk⟩ := List.getElem?_of_mem h1
      rw [List.getElem?_zip_eq_some] at hk
      exact ⟨k, R, V, i, j, hk.1, hk.2, rfl⟩
    · rintro ⟨k, R, V, i, j, h1, h2, rfl⟩
      exact ⟨(R, V), List.mem_of_getElem? (List.getElem?_zip_eq_some.2 ⟨h1, h2⟩), i, j, rfl⟩
  obtain ⟨V, Vs', rfl⟩ := List.exists_cons_of_ne_nil hne
  obtain ⟨R, Rs', rfl⟩ := List.exists_cons_of_ne_nil (l := Bs) (by rintro rfl; simp at h)
  have h0 := (hmem _).2 ⟨0, V, R, 0, 0, rfl, rfl, rfl⟩
  generalize hL : ((V :: Vs').zip (R :: Rs')).flatMap (fun p => (List.finRange n).flatMap fun i => (List.finRange n).map fun j =>
        |p.1 i j - p.2 i j|) = L at h0 hmem ⊢
  cases L with
  | nil => simp at h0
  | cons e es =>
    obtain ⟨h1, h2⟩ := foldl_max_mem es e
    exact ⟨_, rfl, fun k A B hA hB i j => h2 _ ((hmem _).2 ⟨k, A, B, i, j, hA, hB, rfl⟩), (hmem _).1 h1⟩

theorem tfMaxAbsV_ok [NeZero n] {As Bs : List (Fin n → K)} (h : As.length = Bs.length) (hne : As ≠ []) :
    ∃ e, tfMaxAbs As Bs = .ok e ∧ (∀ (k : ℕ) A B, As[k]? = some A → Bs[k]? = some B → ∀ i, |A i - B i| ≤ e) ∧
      ∃ (k : ℕ) (A B : Fin n → K) (i : Fin n), As[k]? = some A ∧ Bs[k]? = some B ∧ e = |A i - B i| := by
  unfold tfMaxAbs
  rw [if_neg (by simpa using h)]
  dsimp only
  have hmem : ∀ e, e ∈ ((As.zip Bs).flatMap fun p => (List.finRange n).map fun i => |p.1 i - p.2 i|) ↔
      ∃ (k : ℕ) (A B : Fin n → K) (i : Fin n), As[k]? = some A ∧ Bs[k]? = some B ∧ e = |A i - B i| := by
    intro e
    simp only [List.mem_flatMap, List.mem_map, List.mem_finRange, true_and]
    constructor
    · rintro ⟨⟨R, V⟩, h1, i, rfl⟩
      obtain ⟨k, hk⟩ := List.getElem?_of_mem h1
      rw [List.getElem?_zip_eq_some] at hk
      exact ⟨k, R, V, i, hk.1, hk.2, rfl⟩
    · rintro ⟨k, R, V, i, h1, h2, rfl⟩
      exact ⟨(R, V), List.mem_of_getElem? (List.getElem?_zip_eq_some.2 ⟨h1, h2⟩), i, rfl⟩
  obtain ⟨V, Vs', rfl⟩ := List.exists_cons_of_ne_nil hne
  obtain ⟨R, Rs', rfl⟩ := List.exists_cons_of_ne_nil (l := Bs) (by rintro rfl; simp at h)
  have h0 := (hmem _).2 ⟨0, V, R, 0, rfl, rfl, rfl⟩
  generalize hL : ((V :: Vs').zip (R :: Rs')).flatMap (fun p => (List.finRange n).map fun i => |p.1 i - p.2 i|) = L at h0 hmem ⊢
  cases L with
  | nil => simp at h0
  | cons e es =>
    obtain ⟨h1, h2⟩ := foldl_max_mem es e
    exact ⟨_, rfl, fun k A B hA hB i => h2 _ ((hmem _).2 ⟨k, A, B, i, hA, hB, rfl⟩), (hmem _).1 h1⟩

theorem tfMaxAbsMat_self [IsStrictOrderedRing K] [NeZero n] {As : List (Matrix (Fin n) (Fin n) K)} (hne : As ≠ []) : tfMaxAbsMat As As = .ok 0 := by
  obtain ⟨e, he, -, k, A, B, i, j, hA, hB, rfl⟩ := tfMaxAbsMat_ok (rfl : As.length = As.length) hne
  rw [hA, Option.some.injEq] at hB
  subst hB
  rw [he, sub_self, abs_zero]

theorem tfMaxAbsV_self [IsStrictOrderedRing K] [NeZero n] {As : List (Fin n → K)} (hne : As ≠ []) : tfMaxAbs As As = .ok 0 := by
  obtain ⟨e, he, -, k, A, B, i, hA, hB, rfl⟩ := tfMaxAbsV_ok (rfl : As.length = As.length) hne
  rw [hA, Option.some.injEq] at hB
  subst hB
  rw [he, sub_self, abs_zero]

/-! ### Lists of the passes -/

omit [Field K] [LinearOrder K] in
theorem tfScanRev_append {α β : Type} (body : β → α → Py β) (b : β) : ∀ (l1 l2 : List α) {r : List β × β},
    tfScanRev body b (l1 ++ l2) = .ok r → ∃ r1 r2, tfScanRev body b l2 = .ok r2 ∧ r.1 = r1 ++ r2.1 ∧ r1.length = l1.length
  | [], l2, r, h => ⟨[], r, h, rfl, rfl⟩
  | a :: l1, l2, r, h => by
    rw [List.cons_append, tfScanRev] at h
    obtain ⟨s, hs, h⟩ := bind_ok.1 h
    obtain ⟨c, hc, h⟩ := bind_ok.1 h
    obtain ⟨r1, r2, h1, h2, h3⟩ := tfScanRev_append body b l1 l2 hs
    obtain rfl := Except.ok.inj h
    exact ⟨c :: r1, r2, h1, by simp [h2], by simp [h3]⟩

theorem tfScanRev_length {α β : Type} (body : β → α → Py β) (b : β) : ∀ (l : List α) {r : List β × β},
    tfScanRev body b l = .ok r → r.1.length = l.length
  | [], r, h => by obtain rfl := Except.ok.inj h; rfl
  | a :: l, r, h => by
    rw [tfScanRev] at h
    obtain ⟨s, hs, h⟩ := bind_ok.1 h
    obtain ⟨c, hc, h⟩ := bind_ok.1 h
    obtain rfl := Except.ok.inj h
    simp [tfScanRev_length body b l hs]

theorem tfScanFwdM_length {α β : Type} (body : β → α → Py β) : ∀ (l : List α) (b : β) {r : List β},
    tfScanFwdM body b l = .ok r → r.length = l.length
  | [], b, r, h => by obtain rfl := Except.ok.inj h; rfl
  | a :: l, b, r, h => by
    rw [tfScanFwdM] at h
    obtain ⟨c, hc, h⟩ := bind_ok.1 h
    obtain ⟨s, hs, h⟩ := bind_ok.1 h
    obtain rfl := Except.ok.inj h
    simp [tfScanFwdM_length body l c hs]

theorem CLQT.tfSeqBackward_length {P : CLQT n m K} {steps : ℕ} {dt t0 : K} {ST : Matrix (Fin n) (Fin n) K} {vT : Fin n → K}
    {r : BwResult n m K} (h : P.tfSeqBackward steps dt t0 ST vT = .ok r) :
    r.Kx_list.length = steps ∧ r.d_list.length = steps ∧ r.S_list.length = steps + 1 ∧ r.v_list.length = steps + 1 := by
  unfold CLQT.tfSeqBackward at h
  obtain ⟨s, hs, h⟩ := bind_ok.1 h
  have hl := tfScanRev_length _ _ _ hs
  obtain rfl := Except.ok.inj h
  simp [hl, tfTimes]

theorem CLQT.tfSeqForward_length {P : CLQT n m K} {x0 : Fin n → K} {Kxs : List (Matrix (Fin m) (Fin n) K)} {ds : List (Fin m → K)}
    {dt t0 : K} {u_zoh : Bool} {r : List (Fin n → K) × List (Fin m → K)} (h : P.tfSeqForward x0 Kxs ds dt t0 u_zoh = .ok r) :
    r.1.length = ds.length + 1 := by
  unfold CLQT.tfSeqForward at h
  by_cases hl : Kxs.length ≠ ds.length
  · rw [if_pos hl] at h
    cases h
  · rw [if_neg hl] at h
    obtain ⟨u0, hu, h⟩ := bind_ok.1 (show (pyGet ds 0 >>= _) = _ from h)
    obtain ⟨s, hs, h⟩ := bind_ok.1 h
    have hl' := tfScanFwdM_length _ _ _ hs
    obtain rfl := Except.ok.inj h
    push Not at hl
    simp [hl', hl, tfTimes]

/-- The last steps of a sequential pass form the sequential pass over these steps. -/
theorem CLQT.tfSeqBackward_last {P : CLQT n m K} {N steps : ℕ} {dt t0 : K} {ST : Matrix (Fin n) (Fin n) K} {vT : Fin n → K}
    {r : BwResult n m K} (h : P.tfSeqBackward (N + steps) dt t0 ST vT = .ok r) :
    ∃ b, P.tfSeqBackward steps dt (t0 + N * dt) ST vT = .ok b ∧ ∀ i, r.Kx_list[N + i]? = b.Kx_list[i]? ∧
      r.d_list[N + i]? = b.d_list[i]? ∧ r.S_list[N + i]? = b.S_list[i]? ∧ r.v_list[N + i]? = b.v_list[i]? := by
  unfold CLQT.tfSeqBackward at h
  obtain ⟨s, hs, h⟩ := bind_ok.1 h
  have ht : tfTimes (N + steps) dt t0 = tfTimes N dt t0 ++ tfTimes steps dt (t0 + N * dt) := by
    unfold tfTimes
    rw [List.range_add, List.map_append, List.map_map]
    congr 1
    refine List.map_congr_left fun k _ => ?_
    simp only [Function.comp_apply]
    push_cast
    ring
  rw [ht] at hs
  obtain ⟨r1, r2, h1, h2, h3⟩ := tfScanRev_append _ _ _ _ hs
  obtain rfl := Except.ok.inj h
  refine ⟨_, by unfold CLQT.tfSeqBackward; rw [h1]; rfl, fun i => ?_⟩
  have hl : r1.length = N := by rw [h3]; simp [tfTimes]
  have hg : ∀ {β : Type} (f : TCarry n m K → β) (e : List β), (List.map f s.1 ++ e)[N + i]? = (List.map f r2.1 ++ e)[i]? := by
    intro β f e
    rw [h2, List.map_append, List.append_assoc, List.getElem?_append_right (by simp [hl])]
    simp [hl]
  refine ⟨?_, ?_, hg _ _, hg _ _⟩
  · simpa using hg TCarry.Kx []
  · simpa using hg TCarry.d []

omit [Field K] [LinearOrder K] in
theorem paren_ne_nil {α : Type} {op : α → α → Py α} {l : List α} {y : α} (h : Paren op l y) : l ≠ [] := by
  induction h with
  | single => simp
  | node _ _ _ h1 _ => simp [h1]

omit [Field K] [LinearOrder K] in
theorem paren_single {α : Type} {op : α → α → Py α} {x y : α} (h : Paren op [x] y) : y = x := by
  generalize hl : [x] = l at h
  cases h with
  | single => exact (List.cons.inj hl).1.symm
  | node h1 h2 _ =>
    have := congrArg List.length hl
    have e1 := List.length_pos_iff.2 (paren_ne_nil h1)
    have e2 := List.length_pos_iff.2 (paren_ne_nil h2)
    simp at this
    omega

/-- The parts of the parallel backward pass: the elements `E` of the blocks, the scanned values `w` and the passes `b` over the
blocks. -/
theorem CLQT.tfParBackward_parts {P : CLQT n m K} {scan : (Elem n K → Elem n K → Py (Elem n K)) → List (Elem n K) → Py (List (Elem n K))}
    (hsc : IsAssocScan scan) {blocks steps : ℕ} {dt t0 : K} {ST : Matrix (Fin n) (Fin n) K} {vT : Fin n → K} {forward : Bool}
    {r : BwResult n m K} (h : P.tfParBackward scan blocks steps dt t0 ST vT forward = .ok r) :
    ∃ (E w : ℕ → Elem n K) (b : ℕ → BwResult n m K),
      (∀ q < blocks, P.tfBlockElem forward steps dt (t0 + q * steps * dt) = .ok (E q)) ∧
      (∀ k ≤ blocks, Paren tfCombVRev (((List.range blocks).map E ++ [(⟨0, 0, 0, vT, ST⟩ : Elem n K)]).drop k).reverse (w k)) ∧
      (∀ q < blocks, P.tfSeqBackward steps dt (t0 + q * steps * dt) (w (q + 1)).J (w (q + 1)).eta = .ok (b q)) ∧
      r = ⟨((List.range blocks).map fun q => (b q).Kx_list).flatten, ((List.range blocks).map fun q => (b q).d_list).flatten,
        (w 0).J :: ((List.range blocks).map fun q => (b q).S_list.tail).flatten,
        (w 0).eta :: ((List.range blocks).map fun q => (b q).v_list.tail).flatten⟩ := by
  haveI : Inhabited (Elem n K) := ⟨⟨0, 0, 0, 0, 0⟩⟩
  haveI : Inhabited (BwResult n m K) := ⟨⟨[], [], [], []⟩⟩
  unfold CLQT.tfParBackward CLQT.tfParBackwardInit at h
  obtain ⟨es', hes, h⟩ := bind_ok.1 h
  obtain ⟨es, hes1, hes2⟩ := bind_ok.1 hes
  obtain rfl := Except.ok.inj hes2
  obtain ⟨rl, hrl, h⟩ := bind_ok.1 h
  have hE := mapM_ok_iff.1 hes1
  have hlE : es.length = blocks := by rw [← hE.length_eq]; simp [tfBlockTimes]
  obtain ⟨E, hEe⟩ := exists_seq es
  rw [hlE] at hEe
  obtain ⟨hl, hp⟩ := hsc.pref hrl
  have hlr : rl.reverse.length = blocks + 1 := by simp [hl, hlE]
  obtain ⟨w, hw⟩ := exists_seq rl.reverse
  rw [hlr] at hw
  rw [hw] at h
  unfold CLQT.tfParBackwardExtract at h
  simp only [List.length_map, List.length_range, Nat.add_sub_cancel, List.map_map, tail_seq, zip_seq, tfBlockTimes] at h
  obtain ⟨rs, hrs, h⟩ := bind_ok.1 h
  rw [pyGet_seq _ (by omega), pyGet_seq _ (by omega)] at h
  obtain rfl := Except.ok.inj h
  have hrs' := mapM_ok_iff.1 hrs
  have hlb : rs.length = blocks := by rw [← hrs'.length_eq]; simp
  obtain ⟨b, hb⟩ := exists_seq rs
  rw [hlb] at hb
  subst hb
  refine ⟨E, w, b, fun q hq => ?_, fun k hk => ?_, fun q hq => ?_, by simp [List.map_map, Function.comp_def]⟩
  · rw [hEe, tfBlockTimes, List.forall₂_map_left_iff, List.forall₂_map_right_iff, List.forall₂_same] at hE
    exact hE q (List.mem_range.2 hq)
  · obtain ⟨v, hv, hpar⟩ := hp (blocks - k) (by simp [hlE])
    have hwk : rl.reverse[k]? = some (w k) := by rw [hw]; simp [Nat.lt_succ_of_le hk]
    rw [List.getElem?_reverse (by simp [hl, hlE]; omega)] at hwk
    have hidx : rl.length - 1 - k = blocks - k := by simp [hl, hlE]
    rw [hidx, hv, Option.some.injEq] at hwk
    subst hwk
    rw [hEe] at hpar
    have htk : (((List.range blocks).map E ++ [(⟨0, 0, 0, vT, ST⟩ : Elem n K)]).reverse.take (blocks - k + 1)) =
        (((List.range blocks).map E ++ [(⟨0, 0, 0, vT, ST⟩ : Elem n K)]).drop k).reverse := by
      rw [List.reverse_drop]
      congr 1
      simp
      omega
    rw [htk] at hpar
    exact hpar
  · rw [List.forall₂_map_left_iff, List.forall₂_map_right_iff, List.forall₂_same] at hrs'
    exact hrs' q (List.mem_range.2 hq)

theorem flatten_range_length {β : Type} {B s : ℕ} {f : ℕ → List β} (h : ∀ q < B, (f q).length = s) :
    ((List.range B).map f).flatten.length = B * s := by
  rw [List.length_flatten, List.map_map]
  have : (List.range B).map (List.length ∘ f) = List.replicate B s := by
    rw [List.eq_replicate_iff]
    refine ⟨by simp, fun a ha => ?_⟩
    obtain ⟨q, hq, rfl⟩ := List.mem_map.1 ha
    exact h q (List.mem_range.1 hq)
  rw [this]
  simp

theorem flatten_range_get {β : Type} {s : ℕ} {f : ℕ → List β} : ∀ {B : ℕ}, (∀ q < B, (f q).length = s) → ∀ {q i : ℕ}, q < B → i < s →
    ((List.range B).map f).flatten[q * s + i]? = (f q)[i]?
  | 0, _, q, i, hq, _ => by omega
  | B + 1, h, q, i, hq, hi => by
    rw [List.range_succ, List.map_append, List.flatten_append]
    have hlen := flatten_range_length (fun q hq => h q (Nat.lt_succ_of_lt hq))
    rcases Nat.lt_succ_iff_lt_or_eq.1 hq with h1 | rfl
    · rw [List.getElem?_append_left, flatten_range_get (fun q hq => h q (Nat.lt_succ_of_lt hq)) h1 hi]
      rw [hlen]
      calc q * s + i < q * s + s := by omega
        _ = (q + 1) * s := by ring
        _ ≤ B * s := Nat.mul_le_mul_right _ h1
    · rw [List.getElem?_append_right (by rw [hlen]; omega), hlen]
      simp

/-- The lengths of the lists and the last block of the parallel backward pass. -/
theorem CLQT.tfParBackward_last {P : CLQT n m K} {scan : (Elem n K → Elem n K → Py (Elem n K)) → List (Elem n K) → Py (List (Elem n K))}
    (hsc : IsAssocScan scan) {B steps : ℕ} {dt t0 : K} {ST : Matrix (Fin n) (Fin n) K} {vT : Fin n → K} {forward : Bool}
    {r r' : BwResult n m K} (h : P.tfParBackward scan (B + 1) steps dt t0 ST vT forward = .ok r)
    (h' : P.tfSeqBackward ((B + 1) * steps) dt t0 ST vT = .ok r') :
    (r.Kx_list.length = (B + 1) * steps ∧ r.d_list.length = (B + 1) * steps ∧ r.S_list.length = (B + 1) * steps + 1 ∧
      r.v_list.length = (B + 1) * steps + 1) ∧
    ∀ j, B * steps ≤ j → r.Kx_list[j]? = r'.Kx_list[j]? ∧ r.d_list[j]? = r'.d_list[j]? ∧ r.S_list[j + 1]? = r'.S_list[j + 1]? ∧
      r.v_list[j + 1]? = r'.v_list[j + 1]? := by
  obtain ⟨E, w, b, -, hw, hb, rfl⟩ := CLQT.tfParBackward_parts hsc h
  have hlen := fun q hq => CLQT.tfSeqBackward_length (hb q hq)
  have hK := flatten_range_length (f := fun q => (b q).Kx_list) fun q hq => (hlen q hq).1
  have hd := flatten_range_length (f := fun q => (b q).d_list) fun q hq => (hlen q hq).2.1
  have hS := flatten_range_length (B := B + 1) (f := fun q => (b q).S_list.tail) (s := steps) fun q hq => by simp [(hlen q hq).2.2.1]
  have hv := flatten_range_length (B := B + 1) (f := fun q => (b q).v_list.tail) (s := steps) fun q hq => by simp [(hlen q hq).2.2.2]
  refine ⟨⟨hK, hd, congrArg (· + 1) hS, congrArg (· + 1) hv⟩, fun j hj => ?_⟩
  have hwl : w (B + 1) = ⟨0, 0, 0, vT, ST⟩ := by
    have := hw (B + 1) le_rfl
    rw [List.drop_left' (by simp)] at this
    exact paren_single this
  obtain ⟨b', hb', hg⟩ := CLQT.tfSeqBackward_last (N := B * steps) (steps := steps)
    (show P.tfSeqBackward (B * steps + steps) dt t0 ST vT = .ok r' by rw [← h']; congr 1; ring)
  have hbB := hb B (by omega)
  rw [hwl] at hbB
  have ht : t0 + ((B * steps : ℕ) : K) * dt = t0 + (B : K) * steps * dt := by push_cast; ring
  rw [ht] at hb'
  obtain rfl : b B = b' := Except.ok.inj (hbB.symm.trans hb')
  obtain ⟨i, rfl⟩ := Nat.exists_eq_add_of_le hj
  have hl' := CLQT.tfSeqBackward_length h'
  rcases Nat.lt_or_ge i steps with hi | hi
  · refine ⟨?_, ?_, ?_, ?_⟩
    · rw [flatten_range_get (fun q hq => (hlen q hq).1) (by omega) hi, (hg i).1]
    · rw [flatten_range_get (fun q hq => (hlen q hq).2.1) (by omega) hi, (hg i).2.1]
    · rw [List.getElem?_cons_succ, flatten_range_get (f := fun q => (b q).S_list.tail) (fun q hq => by simp [(hlen q hq).2.2.1])
        (by omega) hi, add_assoc, (hg (i + 1)).2.2.1]
      simp
    · rw [List.getElem?_cons_succ, flatten_range_get (f := fun q => (b q).v_list.tail) (fun q hq => by simp [(hlen q hq).2.2.2])
        (by omega) hi, add_assoc, (hg (i + 1)).2.2.2]
      simp
  · have e : (B + 1) * steps = B * steps + steps := by ring
    refine ⟨?_, ?_, ?_, ?_⟩
    · rw [List.getElem?_eq_none (by rw [hK]; omega), List.getElem?_eq_none (by rw [hl'.1]; omega)]
    · rw [List.getElem?_eq_none (by rw [hd]; omega), List.getElem?_eq_none (by rw [hl'.2.1]; omega)]
    · rw [List.getElem?_eq_none (by rw [List.length_cons, hS]; omega), List.getElem?_eq_none (by rw [hl'.2.2.1]; omega)]
    · rw [List.getElem?_eq_none (by rw [List.length_cons, hv]; omega), List.getElem?_eq_none (by rw [hl'.2.2.2]; omega)]

end Verif
