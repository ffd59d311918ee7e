import Verif.Proof.ScanSteps
import Verif.Spec.Paren

/-!
Correctness of `myAssocScan`: loop invariants of the up, down and extra pass.
-/

namespace Verif

universe u
variable {α β : Type*}

theorem Seg.append {op : α → α → Py α} {l r : List (Option α)} {x y z : Option α}
    (hl : Seg op l x) (hr : Seg op r y) (h : optOp op x y = .ok z) : Seg op (l ++ r) z := by
  cases x with
  | none =>
    simp only [optOp_none_left, Except.ok.injEq] at h
    subst h
    have hl' : l.reduceOption = [] := hl
    cases y with
    | none => simp only [Seg] at *; simp [List.reduceOption_append, hl', hr]
    | some y => simp only [Seg] at *; simpa [List.reduceOption_append, hl'] using hr
  | some x =>
    cases y with
    | none =>
      simp only [optOp_none_right, Except.ok.injEq] at h
      subst h
      simp only [Seg] at *; simpa [List.reduceOption_append, hr] using hl
    | some y =>
      simp only [optOp_some] at h
      cases ho : op x y with
      | error e => simp [ho, Except.map] at h
      | ok w =>
        simp only [ho, Except.map, Except.ok.injEq] at h
        subst h
        simp only [Seg] at *
        rw [List.reduceOption_append]
        exact Paren.node hl hr ho

/-- Items at positions `s, …, e-1`. -/
def slice (a : List β) (s e : ℕ) : List β := (a.drop s).take (e - s)

theorem slice_append (a : List β) {s m e : ℕ} (h1 : s ≤ m) (h2 : m ≤ e) :
    slice a s m ++ slice a m e = slice a s e := by
  unfold slice
  have h : e - s = (m - s) + (e - m) := by omega
  rw [h, List.take_add]
  congr 1
  rw [List.drop_drop]
  congr 2
  omega

theorem slice_self (a : List β) (s : ℕ) : slice a s s = [] := by simp [slice]

theorem slice_one (a : List β) {s : ℕ} {x : β} (h : a[s]? = some x) : slice a s (s + 1) = [x] := by
  unfold slice
  rw [List.drop_eq_getElem?_toList_append, h]
  simp

theorem slice_zero (a : List β) (e : ℕ) : slice a 0 e = a.take e := by simp [slice]

theorem dvd_aux {t : ℕ} {i : ℕ} (h : 2 ^ (t + 1) ∣ i) (h2 : 2 ^ (t + 1) ∣ i + 2 ^ t) : False := by
  have h3 : 2 ^ (t + 1) ∣ 2 ^ t := (Nat.dvd_add_right h).1 h2
  have := Nat.le_of_dvd (Nat.two_pow_pos t) h3
  have h4 : 2 ^ (t + 1) = 2 ^ t * 2 := pow_succ 2 t
  have := Nat.two_pow_pos t
  omega

/-- Position `i + 2^t - 1` with `2^(t+1) ∣ i` is not one of the positions touched on a level `d > t`. -/
theorem low_pos_ne {t d i j : ℕ} (htd : t < d) (hi : 2 ^ (t + 1) ∣ i) (hj : 2 ^ (d + 1) ∣ j) :
    i + 2 ^ t - 1 ≠ posL d j ∧ i + 2 ^ t - 1 ≠ posR d j := by
  have h1 := Nat.two_pow_pos t
  have h2 := Nat.two_pow_pos d
  have h4 : 2 ^ (d + 1) = 2 ^ d * 2 := pow_succ 2 d
  have hd1 : 2 ^ (t + 1) ∣ 2 ^ d := pow_dvd_pow 2 htd
  have hd2 : 2 ^ (t + 1) ∣ 2 ^ (d + 1) := pow_dvd_pow 2 (by omega)
  have hjt : 2 ^ (t + 1) ∣ j := hd2.trans hj
  unfold posL posR
  constructor
  · intro h
    have : i + 2 ^ t = j + 2 ^ d := by omega
    exact dvd_aux hi (this ▸ Nat.dvd_add hjt hd1)
  · intro h
    have : i + 2 ^ t = j + 2 ^ (d + 1) := by omega
    exact dvd_aux hi (this ▸ Nat.dvd_add hjt hd2)

/-- Invariant of the up pass after the levels `< d`. -/
def UpInv (op : α → α → Py α) (a0 : List (Option α)) (n d : ℕ) (a : List (Option α)) : Prop :=
  a.length = n ∧ ∀ t ≤ d, ∀ i, 2 ^ t ∣ i → i + 2 ^ t ≤ n → (t = d ∨ 2 ^ (t + 1) ∣ i) →
    ∃ v, a[i + 2 ^ t - 1]? = some v ∧ Seg op (slice a0 i (i + 2 ^ t)) v

/-- Invariant of the down pass when the levels `< d` remain to be done. -/
def DownInv (op : α → α → Py α) (a0 : List (Option α)) (n d : ℕ) (a : List (Option α)) : Prop :=
  a.length = n ∧
  (∀ i, 2 ^ d ∣ i → i + 2 ^ d ≤ n → ∃ v, a[i + 2 ^ d - 1]? = some v ∧ Seg op (slice a0 0 i) v) ∧
  (∀ t < d, ∀ i, 2 ^ (t + 1) ∣ i → i + 2 ^ t ≤ n →
    ∃ v, a[i + 2 ^ t - 1]? = some v ∧ Seg op (slice a0 i (i + 2 ^ t)) v)

theorem seg_single {op : α → α → Py α} (x : Option α) : Seg op [x] x := by
  cases x with
  | none => simp [Seg]
  | some x => simpa [Seg] using Paren.single x

theorem upInv_zero (op : α → α → Py α) (a0 : List (Option α)) : UpInv op a0 a0.length 0 a0 := by
  refine ⟨rfl, ?_⟩
  intro t ht i _ hin _
  obtain rfl : t = 0 := by omega
  have hi : i < a0.length := by simp at hin; omega
  refine ⟨a0[i], by simp [hi], ?_⟩
  simp only [pow_zero]
  rw [slice_one a0 (List.getElem?_eq_getElem hi)]
  exact seg_single _

theorem le_of_dvd_lt {s i n : ℕ} (hi : s ∣ i) (hn : s ∣ n) (h : i < n) : i + s ≤ n := by
  rcases dvd_sep hi hn (Nat.ne_of_lt h) with h' | h'
  · exact h'
  · omega

theorem upInv_step {op : α → α → Py α} {a0 : List (Option α)} {L d : ℕ} {a b : List (Option α)}
    (hd : d < L) (ha : UpInv op a0 (2 ^ L) d a) (hs : UpLevel op (2 ^ L) d a b) :
    UpInv op a0 (2 ^ L) (d + 1) b := by
  refine ⟨hs.len.trans ha.1, ?_⟩
  have hpos := Nat.two_pow_pos d
  have hsucc : 2 ^ (d + 1) = 2 ^ d * 2 := pow_succ 2 d
  intro t ht i hi hin hor
  rcases Nat.lt_or_eq_of_le ht with ht' | rfl
  · -- old entries
    have hti : 2 ^ (t + 1) ∣ i := by
      rcases hor with h | h
      · omega
      · exact h
    have htd : t ≤ d := by omega
    obtain ⟨v, hv, hseg⟩ := ha.2 t htd i hi hin (Or.inr hti)
    refine ⟨v, ?_, hseg⟩
    by_cases hk : ∀ j ∈ pyRangeStep (2 ^ L) (2 ^ (d + 1)), i + 2 ^ t - 1 ≠ posL d j ∧ i + 2 ^ t - 1 ≠ posR d j
    · rw [hs.frame _ hk, hv]
    · push Not at hk
      obtain ⟨j, hj, hkj⟩ := hk
      have hj' := (mem_pyRangeStep (Nat.two_pow_pos _)).1 hj
      rcases Nat.lt_or_eq_of_le htd with htd' | rfl
      · have := low_pos_ne htd' hti hj'.1
        exact absurd (hkj this.1) this.2
      · have hij : i + 2 ^ t - 1 = posL t j := by
          by_contra hne
          have h1 := hkj hne
          unfold posR at h1
          have h2 : i + 2 ^ t = j + 2 ^ (t + 1) := by omega
          exact dvd_aux hti (h2 ▸ Nat.dvd_add hj'.1 (dvd_refl _))
        obtain ⟨x, y, x', y', h1, h2, h3, h4, h5⟩ := hs.loc j hj
        rw [hij, h5 (pos_ne t j)]
        rw [hij, h1] at hv
        obtain rfl : x = v := Option.some.inj hv
        unfold gUp at h3
        cases ho : optOp op x y with
        | error e => simp [ho, Except.map] at h3
        | ok z =>
          simp only [ho, Except.map, Except.ok.injEq, Prod.mk.injEq] at h3
          rw [h3.1]
  · -- new entries
    have hj : i ∈ pyRangeStep (2 ^ L) (2 ^ (d + 1)) :=
      (mem_pyRangeStep (Nat.two_pow_pos _)).2 ⟨hi, by have := Nat.two_pow_pos (d + 1); omega⟩
    obtain ⟨x, y, x', y', h1, h2, h3, h4, h5⟩ := hs.loc i hj
    have hdi : 2 ^ d ∣ i := (pow_dvd_pow 2 (by omega)).trans hi
    obtain ⟨v, hv, hsv⟩ := ha.2 d le_rfl i hdi (by omega) (Or.inl rfl)
    obtain ⟨w, hw, hsw⟩ := ha.2 d le_rfl (i + 2 ^ d) (Nat.dvd_add hdi (dvd_refl _)) (by omega) (Or.inl rfl)
    have e1 : a[posL d i]? = some v := hv
    have e2 : a[posR d i]? = some w := by
      have : posR d i = i + 2 ^ d + 2 ^ d - 1 := by unfold posR; omega
      rw [this]; exact hw
    obtain rfl : x = v := Option.some.inj (h1.symm.trans e1)
    obtain rfl : y = w := Option.some.inj (h2.symm.trans e2)
    refine ⟨y', h4, ?_⟩
    unfold gUp at h3
    cases ho : optOp op x y with
    | error e => simp [ho, Except.map] at h3
    | ok z =>
      simp only [ho, Except.map, Except.ok.injEq, Prod.mk.injEq] at h3
      have := Seg.append hsv hsw ho
      rw [slice_append a0 (by omega) (by omega)] at this
      rw [← h3.2, hsucc]
      convert this using 2
      omega

theorem downInv_init {op : α → α → Py α} {a0 : List (Option α)} {L : ℕ} {a : List (Option α)}
    (ha : UpInv op a0 (2 ^ L) L a) : DownInv op a0 (2 ^ L) L (a.set (2 ^ L - 1) none) := by
  have hpos := Nat.two_pow_pos L
  refine ⟨by simpa using ha.1, ?_, ?_⟩
  · intro i _ hin
    obtain rfl : i = 0 := by omega
    refine ⟨none, ?_, by simp [Seg, slice_self]⟩
    rw [Nat.zero_add, List.getElem?_set, if_pos rfl, if_pos (by rw [ha.1]; omega)]
  · intro t ht i hi hin
    have hti : 2 ^ t ∣ i := (pow_dvd_pow 2 (by omega)).trans hi
    obtain ⟨v, hv, hs⟩ := ha.2 t ht.le i hti hin (Or.inr hi)
    refine ⟨v, ?_, hs⟩
    rw [List.getElem?_set, if_neg, hv]
    intro h
    have hpt := Nat.two_pow_pos t
    have : i + 2 ^ t = 2 ^ L := by omega
    exact dvd_aux hi (this ▸ pow_dvd_pow 2 ht)

theorem dvd_half {d i : ℕ} (h : 2 ^ d ∣ i) : 2 ^ (d + 1) ∣ i ∨ ∃ j, 2 ^ (d + 1) ∣ j ∧ i = j + 2 ^ d := by
  obtain ⟨m, rfl⟩ := h
  rcases Nat.even_or_odd' m with ⟨k, rfl | rfl⟩
  · left; exact ⟨k, by rw [pow_succ]; ring⟩
  · right; exact ⟨2 ^ (d + 1) * k, dvd_mul_right _ _, by rw [pow_succ]; ring⟩

theorem downInv_step {op : α → α → Py α} {a0 : List (Option α)} {L d : ℕ} {a b : List (Option α)}
    (hd : d < L) (ha : DownInv op a0 (2 ^ L) (d + 1) a) (hs : DownLevel op (2 ^ L) d a b) :
    DownInv op a0 (2 ^ L) d b := by
  have hpos := Nat.two_pow_pos d
  have hsucc : 2 ^ (d + 1) = 2 ^ d * 2 := pow_succ 2 d
  have hdvd : 2 ^ (d + 1) ∣ 2 ^ L := pow_dvd_pow 2 hd
  -- the new contents of a block starting at `j`
  have key : ∀ j, 2 ^ (d + 1) ∣ j → j < 2 ^ L → ∃ v w, b[posL d j]? = some v ∧ b[posR d j]? = some w ∧
      Seg op (slice a0 0 j) v ∧ Seg op (slice a0 0 (j + 2 ^ d)) w := by
    intro j hj hjn
    have hfull := le_of_dvd_lt hj hdvd hjn
    have hm : j ∈ pyRangeStep (2 ^ L) (2 ^ (d + 1)) := (mem_pyRangeStep (Nat.two_pow_pos _)).2 ⟨hj, hjn⟩
    obtain ⟨x, y, x', y', h1, h2, h3, h4, h5⟩ := hs.loc j hm
    obtain ⟨v, hv, hsv⟩ := ha.2.1 j hj hfull
    obtain ⟨w, hw, hsw⟩ := ha.2.2 d (by omega) j hj (by omega)
    have e1 : a[posL d j]? = some w := hw
    have e2 : a[posR d j]? = some v := hv
    obtain rfl : x = w := Option.some.inj (h1.symm.trans e1)
    obtain rfl : y = v := Option.some.inj (h2.symm.trans e2)
    unfold gDown at h3
    cases ho : optOp op y x with
    | error e => simp [ho, Except.map] at h3
    | ok z =>
      simp only [ho, Except.map, Except.ok.injEq, Prod.mk.injEq] at h3
      refine ⟨x', y', h5 (pos_ne d j), h4, ?_, ?_⟩
      · rw [← h3.1]; exact hsv
      · rw [← h3.2]
        have := Seg.append hsv hsw ho
        rwa [slice_append a0 (by omega) (by omega)] at this
  refine ⟨hs.len.trans ha.1, ?_, ?_⟩
  · intro i hi hin
    rcases dvd_half hi with h | ⟨j, hj, rfl⟩
    · obtain ⟨v, w, hv, _, hsv, _⟩ := key i h (by omega)
      exact ⟨v, hv, hsv⟩
    · obtain ⟨v, w, _, hw, _, hsw⟩ := key j hj (by omega)
      refine ⟨w, ?_, hsw⟩
      have : j + 2 ^ d + 2 ^ d - 1 = posR d j := by unfold posR; omega
      rw [this, hw]
  · intro t ht i hi hin
    obtain ⟨v, hv, hsv⟩ := ha.2.2 t (by omega) i hi hin
    refine ⟨v, ?_, hsv⟩
    rw [hs.frame, hv]
    intro j hj
    exact low_pos_ne ht hi ((mem_pyRangeStep (Nat.two_pow_pos _)).1 hj).1

theorem extra_seg {op : α → α → Py α} {a0 : List (Option α)} {L : ℕ} {a b : List (Option α)}
    (hlen : a0.length = 2 ^ L) (ha : DownInv op a0 (2 ^ L) 0 a) (hs : ExtraLevel op a0 (2 ^ L) a b) :
    b.length = 2 ^ L ∧ ∀ i < 2 ^ L, ∃ v, b[i]? = some v ∧ Seg op (a0.take (i + 1)) v := by
  refine ⟨hs.len.trans ha.1, ?_⟩
  intro i hi
  obtain ⟨x, y, x', y', h1, h2, h3, h4, _⟩ := hs.loc i (List.mem_range.2 hi)
  obtain ⟨v, hv, hsv⟩ := ha.2.1 i (by simp) (by simp; omega)
  have hv' : a[i]? = some v := by simpa using hv
  obtain rfl : y = v := Option.some.inj (h2.symm.trans hv')
  have hz : a0[i]? = some a0[i] := List.getElem?_eq_getElem (by omega)
  unfold gExtra at h3
  rw [pyGet_ok.2 hz] at h3
  cases ho : optOp op y a0[i] with
  | error e => simp [ho, Except.map, bind, Except.bind] at h3
  | ok z =>
    simp only [ho, Except.map, bind, Except.bind, Except.ok.injEq, Prod.mk.injEq] at h3
    refine ⟨y', h4, ?_⟩
    have := Seg.append hsv (seg_single (op := op) a0[i]) ho
    rw [← slice_one a0 hz, slice_append a0 (Nat.zero_le _) (Nat.le_succ _), slice_zero] at this
    rw [← h3.2]; exact this

/-! ### The passes as folds over levels -/

theorem foldlM_range_inv {I : ℕ → β → Prop} {f : β → ℕ → Py β} {L : ℕ}
    (hstep : ∀ d < L, ∀ a b, I d a → f a d = .ok b → I (d + 1) b) :
    ∀ a b, I 0 a → (List.range L).foldlM f a = .ok b → I L b := by
  induction L with
  | zero => intro a b ha h; simp at h; cases h; exact ha
  | succ L ih =>
    intro a b ha h
    rw [List.range_succ, List.foldlM_append] at h
    cases h1 : (List.range L).foldlM f a with
    | error e => simp [h1, bind, Except.bind] at h
    | ok c =>
      simp only [h1, bind, Except.bind, List.foldlM_cons, List.foldlM_nil] at h
      have hc := ih (fun d hd => hstep d (by omega)) a c ha h1
      cases h2 : f c L with
      | error e => simp [h2] at h
      | ok e =>
        simp only [h2, pure, Except.pure, Except.ok.injEq] at h
        subst h
        exact hstep L (by omega) c _ hc h2

theorem foldlM_rev_range_inv {I : ℕ → β → Prop} {f : β → ℕ → Py β} {L : ℕ}
    (hstep : ∀ d < L, ∀ a b, I (d + 1) a → f a d = .ok b → I d b) :
    ∀ a b, I L a → (List.range L).reverse.foldlM f a = .ok b → I 0 b := by
  induction L with
  | zero => intro a b ha h; simp at h; cases h; exact ha
  | succ L ih =>
    intro a b ha h
    rw [List.range_succ, List.reverse_append] at h
    simp only [List.reverse_cons, List.reverse_nil, List.nil_append, List.cons_append, List.foldlM_cons] at h
    cases h1 : f a L with
    | error e => simp [h1, bind, Except.bind] at h
    | ok c =>
      simp only [h1, bind, Except.bind] at h
      exact ih (fun d hd => hstep d (by omega)) c b (hstep L (by omega) a c ha h1) h

theorem bind_ok {β γ : Type u} {x : Py β} {f : β → Py γ} {r : γ} :
    (x >>= f) = .ok r ↔ ∃ y, x = .ok y ∧ f y = .ok r := by
  cases x <;> simp [bind, Except.bind]

/-- All orders of the parallel loops that permute the sequential order. -/
def ValidOrd (ord : ScanPass → ℕ → List ℕ → List ℕ) : Prop := ∀ p d l, (ord p d l).Perm l

/-- The list after padding, lines 33-36. -/
def padded (a : List (Option α)) : List (Option α) :=
  a ++ List.replicate (2 ^ Nat.clog 2 a.length - a.length) none

theorem padded_length (a : List (Option α)) : (padded a).length = 2 ^ Nat.clog 2 a.length := by
  have := Nat.le_pow_clog (b := 2) (by omega) a.length
  simp [padded]; omega

/-- Outcome of the non-reversed scan, stated level by level. -/
theorem scanOrd_iff (ord : ScanPass → ℕ → List ℕ → List ℕ) (op : α → α → Py α)
    (a r : List (Option α)) :
    myAssocScanOrd ord op a = .ok r ↔
      a.length ≠ 0 ∧ ∃ b c e,
        (List.range (Nat.clog 2 a.length)).foldlM
          (fun a' d => (ord .up d (pyRangeStep (2 ^ Nat.clog 2 a.length) (2 ^ (d + 1)))).foldlM (upStep op d) a')
          (padded a) = .ok b ∧
        (List.range (Nat.clog 2 a.length)).reverse.foldlM
          (fun a' d => (ord .down d (pyRangeStep (2 ^ Nat.clog 2 a.length) (2 ^ (d + 1)))).foldlM (downStep op d) a')
          (b.set (2 ^ Nat.clog 2 a.length - 1) none) = .ok c ∧
        2 ^ Nat.clog 2 a.length - 1 < b.length ∧
        (ord .extra 0 (List.range (2 ^ Nat.clog 2 a.length))).foldlM (extraStep op (padded a)) c = .ok e ∧
        e.take a.length = r := by
  unfold myAssocScanOrd
  by_cases h0 : a.length = 0
  · simp [h0, throw, throwThe, MonadExceptOf.throw, bind, Except.bind]
  · simp only [h0, if_false, pure_bind]
    rw [bind_ok]
    constructor
    · rintro ⟨b, hb, h⟩
      rw [bind_ok] at h
      obtain ⟨b', hb', h⟩ := h
      rw [pySet_ok] at hb'
      obtain ⟨hlt, rfl⟩ := hb'
      rw [bind_ok] at h
      obtain ⟨c, hc, h⟩ := h
      rw [bind_ok] at h
      obtain ⟨e, he, h⟩ := h
      exact ⟨h0, b, c, e, hb, hc, hlt, he, by simpa [pure, Except.pure] using h⟩
    · rintro ⟨_, b, c, e, hb, hc, hlt, he, hr⟩
      refine ⟨b, hb, ?_⟩
      rw [pySet_lt hlt]
      simp only [bind, Except.bind]
      rw [hc]
      simp only
      unfold padded at he
      rw [he]
      simp [pure, Except.pure, hr]

/-- Main theorem on the non-reversed scan: whatever the operation and the order of the parallel
loops, the items are in-order combinations of the prefixes. -/
theorem scanOrd_prefix {ord : ScanPass → ℕ → List ℕ → List ℕ} (hord : ValidOrd ord) {op : α → α → Py α}
    {a r : List (Option α)} (h : myAssocScanOrd ord op a = .ok r) :
    r.length = a.length ∧ ∀ k < a.length, ∃ v, r[k]? = some v ∧ Seg op (a.take (k + 1)) v := by
  obtain ⟨h0, b, c, e, hb, hc, hlt, he, hr⟩ := (scanOrd_iff ord op a r).1 h
  set L := Nat.clog 2 a.length with hL
  have hlen : (padded a).length = 2 ^ L := padded_length a
  have hle : a.length ≤ 2 ^ L := Nat.le_pow_clog (by omega) _
  have hup : UpInv op (padded a) (2 ^ L) L b := by
    refine foldlM_range_inv (I := UpInv op (padded a) (2 ^ L)) ?_ _ _ ?_ hb
    · intro d hd x y hx hxy
      exact upInv_step hd hx ((up_level_iff op _ d _ (hord _ _ _) x y).1 hxy)
    · have := upInv_zero op (padded a)
      rwa [hlen] at this
  have hdown : DownInv op (padded a) (2 ^ L) 0 c := by
    refine foldlM_rev_range_inv (I := DownInv op (padded a) (2 ^ L)) ?_ _ _ (downInv_init hup) hc
    intro d hd x y hx hxy
    exact downInv_step hd hx ((down_level_iff op _ d _ (hord _ _ _) x y).1 hxy)
  have hex := extra_seg hlen hdown ((extra_level_iff op _ _ _ (hord _ _ _) _ _).1 he)
  subst hr
  refine ⟨by simp [hex.1, hle], ?_⟩
  intro k hk
  obtain ⟨v, hv, hs⟩ := hex.2 k (by omega)
  refine ⟨v, ?_, ?_⟩
  · rw [List.getElem?_take, if_pos hk, hv]
  · have : (padded a).take (k + 1) = a.take (k + 1) := by
      unfold padded
      rw [List.take_append_of_le_length (by omega)]
    rwa [this] at hs

end Verif
