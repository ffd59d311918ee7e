import Verif.Proof.ScanTotal

/-!
The scan performs a bounded number of operations: it succeeds if the operation succeeds on sets that may grow with every operation.
-/

namespace Verif

universe u
variable {α : Type u} {β ι : Type*}

theorem foldlM_graded {I : ℕ → β → Prop} {f : β → ι → Py β} {l : List ι} {N : ℕ}
    (h : ∀ i ∈ l, ∀ t < N, ∀ a, I t a → ∃ b, f a i = .ok b ∧ I (t + 1) b) :
    ∀ t a, t + l.length ≤ N → I t a → ∃ b, l.foldlM f a = .ok b ∧ I (t + l.length) b := by
  induction l with
  | nil => intro t a _ ha; exact ⟨a, by simp [pure, Except.pure], ha⟩
  | cons i l ih =>
    intro t a hN ha
    rw [List.length_cons] at hN
    obtain ⟨b, hb, hIb⟩ := h i (by simp) t (by omega) a ha
    obtain ⟨c, hc, hIc⟩ := ih (fun j hj => h j (by simp [hj])) (t + 1) b (by omega) hIb
    refine ⟨c, by rw [List.foldlM_cons, hb]; exact hc, ?_⟩
    rw [List.length_cons]
    have : t + 1 + l.length = t + (l.length + 1) := by omega
    rwa [this] at hIc

/-- `op` leads from grade `t` to grade `t + 1`. -/
def Graded (P : ℕ → α → Prop) (op : α → α → Py α) (N : ℕ) : Prop :=
  (∀ t x, P t x → P (t + 1) x) ∧ ∀ t < N, ∀ x y, P t x → P t y → ∃ z, op x y = .ok z ∧ P (t + 1) z

theorem Graded.le {P : ℕ → α → Prop} {op : α → α → Py α} {N : ℕ} (h : Graded P op N) {s t : ℕ} (hst : s ≤ t) {x : α} (hx : P s x) : P t x := by
  induction hst with
  | refl => exact hx
  | step _ ih => exact h.1 _ _ ih

theorem Graded.opt {P : ℕ → α → Prop} {op : α → α → Py α} {N : ℕ} (h : Graded P op N) {t : ℕ} (ht : t < N) {x y : Option α}
    (hx : optP (P t) x) (hy : optP (P t) y) : ∃ z, optOp op x y = .ok z ∧ optP (P (t + 1)) z := by
  cases x with
  | none => exact ⟨y, by simp, fun w hw => h.1 _ _ (hy w hw)⟩
  | some x =>
    cases y with
    | none => exact ⟨some x, by simp, fun w hw => h.1 _ _ (hx w hw)⟩
    | some y =>
      obtain ⟨z, hz, hP⟩ := h.2 t ht x y (hx x rfl) (hy y rfl)
      exact ⟨some z, by simp [hz, Except.map], by intro w hw; cases hw; exact hP⟩

theorem localStep_graded {P : ℕ → α → Prop} {op : α → α → Py α} {N : ℕ} (h : Graded P op N) {p q : ι → ℕ}
    {g : ι → Option α → Option α → Py (Option α × Option α)}
    {i : ι} {n t : ℕ} (hp : p i < n) (hq : q i < n)
    (hg : ∀ x y, optP (P t) x → optP (P t) y → ∃ r, g i x y = .ok r ∧ optP (P (t + 1)) r.1 ∧ optP (P (t + 1)) r.2)
    (a : List (Option α)) (ha : AllP (P t) n a) : ∃ b, localStep p q g a i = .ok b ∧ AllP (P (t + 1)) n b := by
  have hp' : p i < a.length := by rw [ha.1]; exact hp
  have hq' : q i < a.length := by rw [ha.1]; exact hq
  have h1 : a[p i]? = some a[p i] := List.getElem?_eq_getElem hp'
  have h2 : a[q i]? = some a[q i] := List.getElem?_eq_getElem hq'
  obtain ⟨r, hr, hr1, hr2⟩ := hg a[p i] a[q i]
    (fun y hy => ha.2 y (hy ▸ List.getElem_mem _)) (fun y hy => ha.2 y (hy ▸ List.getElem_mem _))
  refine ⟨(a.set (p i) r.1).set (q i) r.2, ?_, by simpa using ha.1, ?_⟩
  · rw [localStep_get h1 h2, hr]; rfl
  · intro x hx
    rcases List.mem_or_eq_of_mem_set hx with h' | h'
    · rcases List.mem_or_eq_of_mem_set h' with h' | h'
      · exact h.1 _ _ (ha.2 x h')
      · exact hr1 x h'.symm
    · exact hr2 x h'.symm

variable {P : ℕ → α → Prop} {op : α → α → Py α} {N t : ℕ}

theorem gUp_graded (hc : Graded P op N) (ht : t < N) (i : ℕ) (x y : Option α)
    (hx : optP (P t) x) (hy : optP (P t) y) : ∃ r, gUp op i x y = .ok r ∧ optP (P (t + 1)) r.1 ∧ optP (P (t + 1)) r.2 := by
  obtain ⟨z, hz, hP⟩ := hc.opt ht hx hy
  exact ⟨(x, z), by simp [gUp, hz, Except.map], fun w hw => hc.1 _ _ (hx w hw), hP⟩

theorem gDown_graded (hc : Graded P op N) (ht : t < N) (i : ℕ) (x y : Option α)
    (hx : optP (P t) x) (hy : optP (P t) y) : ∃ r, gDown op i x y = .ok r ∧ optP (P (t + 1)) r.1 ∧ optP (P (t + 1)) r.2 := by
  obtain ⟨z, hz, hP⟩ := hc.opt ht hy hx
  exact ⟨(y, z), by simp [gDown, hz, Except.map], fun w hw => hc.1 _ _ (hy w hw), hP⟩

theorem gExtra_graded (hc : Graded P op N) (ht : t < N) {a0 : List (Option α)} {n : ℕ}
    (ha0 : AllP (P 0) n a0) (i : ℕ) (hi : i < n) (x y : Option α)
    (hx : optP (P t) x) (hy : optP (P t) y) : ∃ r, gExtra op a0 i x y = .ok r ∧ optP (P (t + 1)) r.1 ∧ optP (P (t + 1)) r.2 := by
  have hi' : i < a0.length := by rw [ha0.1]; exact hi
  have h1 : a0[i]? = some a0[i] := List.getElem?_eq_getElem hi'
  obtain ⟨z, hz, hP⟩ := hc.opt ht hy (fun y hy => hc.le (Nat.zero_le t) (ha0.2 y (hy ▸ List.getElem_mem _)) : optP (P t) a0[i])
  exact ⟨(x, z), by simp only [gExtra, pyGet_ok.2 h1, hz, Except.map, bind, Except.bind], fun w hw => hc.1 _ _ (hx w hw), hP⟩

/-- The number of operations performed on the levels of a pass. -/
def levelSum (c : ℕ → ℕ) : List ℕ → ℕ
  | [] => 0
  | d :: l => c d + levelSum c l

theorem levels_graded {I : ℕ → β → Prop} {F : ℕ → List ι} {f : ℕ → β → ι → Py β} {N : ℕ} : ∀ (l : List ℕ)
    (_ : ∀ d ∈ l, ∀ i ∈ F d, ∀ t < N, ∀ a, I t a → ∃ b, f d a i = .ok b ∧ I (t + 1) b) (t : ℕ) (a : β),
    t + levelSum (fun d => (F d).length) l ≤ N → I t a →
    ∃ b, l.foldlM (fun a d => (F d).foldlM (f d) a) a = .ok b ∧ I (t + levelSum (fun d => (F d).length) l) b
  | [], _, t, a, _, ha => ⟨a, by simp [pure, Except.pure], ha⟩
  | d :: l, h, t, a, hN, ha => by
    simp only [levelSum] at hN ⊢
    obtain ⟨b, hb, hIb⟩ := foldlM_graded (h d (by simp)) t a (by omega) ha
    obtain ⟨c, hc, hIc⟩ := levels_graded l (fun d' hd' => h d' (by simp [hd'])) _ b (by omega) hIb
    refine ⟨c, by rw [List.foldlM_cons, hb]; exact hc, ?_⟩
    rwa [← Nat.add_assoc]

/-- Number of operations of the scan of a list of length `n`. -/
def scanOps (n : ℕ) : ℕ :=
  levelSum (fun d => (pyRangeStep (2 ^ Nat.clog 2 n) (2 ^ (d + 1))).length) (List.range (Nat.clog 2 n)) +
    levelSum (fun d => (pyRangeStep (2 ^ Nat.clog 2 n) (2 ^ (d + 1))).length) (List.range (Nat.clog 2 n)).reverse + 2 ^ Nat.clog 2 n

theorem scan_graded (hc : Graded P op N) {a : List (Option α)} (hne : a ≠ []) (hN : scanOps a.length ≤ N)
    (ha : ∀ x, some x ∈ a → P 0 x) : ∃ r, myAssocScan op a = .ok r := by
  have hpad := AllP_padded ha
  unfold scanOps at hN
  set L := Nat.clog 2 a.length with hL
  have hpos := Nat.two_pow_pos L
  obtain ⟨b, hb, hPb⟩ := levels_graded (I := fun t => AllP (P t) (2 ^ L)) (N := N)
    (F := fun d => pyRangeStep (2 ^ L) (2 ^ (d + 1))) (f := fun d => localStep (posL d) (posR d) (gUp op)) (List.range L) (by
      intro d hd i hi t ht z hz
      have := pos_lt (List.mem_range.1 hd) hi
      exact localStep_graded hc this.1 this.2 (gUp_graded hc ht i) z hz) 0 _ (by omega) hpad
  rw [Nat.zero_add] at hPb
  have hb' := (foldlM_congr_ok (fun d _ x y => foldlM_ok_congr (fun a i b => (upStep_iff op d a i b)) _ x y) (padded a) b).2 hb
  set T1 := levelSum (fun d => (pyRangeStep (2 ^ L) (2 ^ (d + 1))).length) (List.range L) with hT1
  have hset : AllP (P T1) (2 ^ L) (b.set (2 ^ L - 1) none) := by
    refine ⟨by simpa using hPb.1, ?_⟩
    intro x hx
    rcases List.mem_or_eq_of_mem_set hx with h | h
    · exact hPb.2 x h
    · simp at h
  obtain ⟨c, hcc, hPc⟩ := levels_graded (I := fun t => AllP (P t) (2 ^ L)) (N := N)
    (F := fun d => pyRangeStep (2 ^ L) (2 ^ (d + 1))) (f := fun d => localStep (posL d) (posR d) (gDown op)) (List.range L).reverse (by
      intro d hd i hi t ht z hz
      have := pos_lt (List.mem_range.1 (List.mem_reverse.1 hd)) hi
      exact localStep_graded hc this.1 this.2 (gDown_graded hc ht i) z hz) T1 _ (by omega) hset
  have hcc' := (foldlM_congr_ok (fun d _ x y => foldlM_ok_congr (fun a i b => (downStep_iff op d a i b)) _ x y) _ c).2 hcc
  set T2 := levelSum (fun d => (pyRangeStep (2 ^ L) (2 ^ (d + 1))).length) (List.range L).reverse with hT2
  obtain ⟨e, he, -⟩ := foldlM_graded (I := fun t => AllP (P t) (2 ^ L)) (N := N)
    (f := localStep (fun i => i) (fun i => i) (gExtra op (padded a))) (l := List.range (2 ^ L)) (by
      intro i hi t ht z hz
      have := List.mem_range.1 hi
      exact localStep_graded hc this this (gExtra_graded hc ht hpad i this) z hz) (T1 + T2) c (by simpa using hN) hPc
  refine ⟨e.take a.length, ?_⟩
  unfold myAssocScan
  rw [if_neg (by simp)]
  refine (scanOrd_iff _ op a _).2 ⟨by simpa using hne, b, c, e, hb', hcc', ?_, ?_, rfl⟩
  · rw [← hL, hPb.1]; have := Nat.two_pow_pos L; omega
  · exact (foldlM_ok_congr (extraStep_iff op (padded a)) _ _ _).2 he

/-- The scan completes if the operation can be applied as often as the scan does. -/
theorem scanVals_graded (hc : Graded P op N) {a : List α} (hne : a ≠ []) (hN : scanOps a.length ≤ N)
    (ha : ∀ x ∈ a, P 0 x) (rev : Bool) : ∃ r, scanVals op a rev = .ok r := by
  have ha' : ∀ x, some x ∈ a.map some → P 0 x := fun x hx => by
    obtain ⟨y, hy, e⟩ := List.mem_map.1 hx
    cases e; exact ha _ hy
  have key : ∃ s, myAssocScan op (a.map some) rev = .ok s := by
    cases rev with
    | false => exact scan_graded hc (by simpa using hne) (by simpa using hN) ha'
    | true =>
      have hc' : Graded P (fun x y => op y x) N := ⟨hc.1, fun t ht x y hx hy => hc.2 t ht y x hy hx⟩
      obtain ⟨r, hr⟩ := scan_graded hc' (a := (a.map some).reverse) (by simpa using hne) (by simpa using hN)
        (fun x hx => ha' x (by simpa using hx))
      unfold myAssocScan at hr
      rw [if_neg (by simp)] at hr
      exact ⟨r.reverse, by simp [myAssocScan, hr, bind, Except.bind, pure, Except.pure]⟩
  obtain ⟨s, hs⟩ := key
  obtain ⟨r, hr, _⟩ := scanVals_eq hs
  exact ⟨r, hr⟩

end Verif
