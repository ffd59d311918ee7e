import Verif.Proof.Scan

/-!
Totality, schedule independence and consequences for lists without `None`.
-/

namespace Verif

universe u
variable {α : Type u} {β ι : Type*}

theorem foldlM_total {I : β → Prop} {f : β → ι → Py β} {l : List ι}
    (h : ∀ i ∈ l, ∀ a, I a → ∃ b, f a i = .ok b ∧ I b) :
    ∀ a, I a → ∃ b, l.foldlM f a = .ok b ∧ I b := by
  induction l with
  | nil => intro a ha; exact ⟨a, by simp [pure, Except.pure], ha⟩
  | cons i l ih =>
    intro a ha
    obtain ⟨b, hb, hIb⟩ := h i (by simp) a ha
    obtain ⟨c, hc, hIc⟩ := ih (fun j hj => h j (by simp [hj])) b hIb
    exact ⟨c, by rw [List.foldlM_cons, hb]; exact hc, hIc⟩

/-- All non-`None` entries satisfy `P`. -/
def AllP (P : α → Prop) (n : ℕ) (a : List (Option α)) : Prop := a.length = n ∧ ∀ x, some x ∈ a → P x

def optP (P : α → Prop) (x : Option α) : Prop := ∀ y, x = some y → P y

/-- `op` is total on `P` and preserves it. -/
def Closed (P : α → Prop) (op : α → α → Py α) : Prop := ∀ x y, P x → P y → ∃ z, op x y = .ok z ∧ P z

theorem optOp_total {P : α → Prop} {op : α → α → Py α} (hc : Closed P op) {x y : Option α}
    (hx : optP P x) (hy : optP P y) : ∃ z, optOp op x y = .ok z ∧ optP P z := by
  cases x with
  | none => exact ⟨y, by simp, hy⟩
  | some x =>
    cases y with
    | none => exact ⟨some x, by simp, hx⟩
    | some y =>
      obtain ⟨z, hz, hP⟩ := hc x y (hx x rfl) (hy y rfl)
      exact ⟨some z, by simp [hz, Except.map], by intro w hw; cases hw; exact hP⟩

theorem localStep_total {P : α → Prop} {p q : ι → ℕ} {g : ι → Option α → Option α → Py (Option α × Option α)}
    {i : ι} {n : ℕ} (hp : p i < n) (hq : q i < n)
    (hg : ∀ x y, optP P x → optP P y → ∃ r, g i x y = .ok r ∧ optP P r.1 ∧ optP P r.2)
    (a : List (Option α)) (ha : AllP P n a) : ∃ b, localStep p q g a i = .ok b ∧ AllP P n b := by
  have hp' : p i < a.length := by rw [ha.1]; exact hp
  have hq' : q i < a.length := by rw [ha.1]; exact hq
  have h1 : a[p i]? = some a[p i] := List.getElem?_eq_getElem hp'
  have h2 : a[q i]? = some a[q i] := List.getElem?_eq_getElem hq'
  obtain ⟨r, hr, hr1, hr2⟩ := hg a[p i] a[q i]
    (fun y hy => ha.2 y (hy ▸ List.getElem_mem _)) (fun y hy => ha.2 y (hy ▸ List.getElem_mem _))
  refine ⟨(a.set (p i) r.1).set (q i) r.2, ?_, by simpa using ha.1, ?_⟩
  · rw [localStep_get h1 h2, hr]; rfl
  · intro x hx
    rcases List.mem_or_eq_of_mem_set hx with h | h
    · rcases List.mem_or_eq_of_mem_set h with h | h
      · exact ha.2 x h
      · exact hr1 x h.symm
    · exact hr2 x h.symm

theorem gUp_total {P : α → Prop} {op : α → α → Py α} (hc : Closed P op) (i : ℕ) (x y : Option α)
    (hx : optP P x) (hy : optP P y) : ∃ r, gUp op i x y = .ok r ∧ optP P r.1 ∧ optP P r.2 := by
  obtain ⟨z, hz, hP⟩ := optOp_total hc hx hy
  exact ⟨(x, z), by simp [gUp, hz, Except.map], hx, hP⟩

theorem gDown_total {P : α → Prop} {op : α → α → Py α} (hc : Closed P op) (i : ℕ) (x y : Option α)
    (hx : optP P x) (hy : optP P y) : ∃ r, gDown op i x y = .ok r ∧ optP P r.1 ∧ optP P r.2 := by
  obtain ⟨z, hz, hP⟩ := optOp_total hc hy hx
  exact ⟨(y, z), by simp [gDown, hz, Except.map], hy, hP⟩

theorem gExtra_total {P : α → Prop} {op : α → α → Py α} (hc : Closed P op) {a0 : List (Option α)} {n : ℕ}
    (ha0 : AllP P n a0) (i : ℕ) (hi : i < n) (x y : Option α)
    (hx : optP P x) (hy : optP P y) : ∃ r, gExtra op a0 i x y = .ok r ∧ optP P r.1 ∧ optP P r.2 := by
  have hi' : i < a0.length := by rw [ha0.1]; exact hi
  have h1 : a0[i]? = some a0[i] := List.getElem?_eq_getElem hi'
  obtain ⟨z, hz, hP⟩ := optOp_total hc hy (fun y hy => ha0.2 y (hy ▸ List.getElem_mem _) : optP P a0[i])
  exact ⟨(x, z), by simp only [gExtra, pyGet_ok.2 h1, hz, Except.map, bind, Except.bind], hx, hP⟩

theorem AllP_padded {P : α → Prop} {a : List (Option α)} (ha : ∀ x, some x ∈ a → P x) :
    AllP P (2 ^ Nat.clog 2 a.length) (padded a) := by
  refine ⟨padded_length a, ?_⟩
  intro x hx
  unfold padded at hx
  rcases List.mem_append.1 hx with h | h
  · exact ha x h
  · have := List.eq_of_mem_replicate h; simp at this

theorem pos_lt {L d i : ℕ} (hd : d < L) (hi : i ∈ pyRangeStep (2 ^ L) (2 ^ (d + 1))) :
    posL d i < 2 ^ L ∧ posR d i < 2 ^ L := by
  have h := (mem_pyRangeStep (Nat.two_pow_pos _)).1 hi
  have := le_of_dvd_lt h.1 (pow_dvd_pow 2 hd) h.2
  have h2 : 2 ^ (d + 1) = 2 ^ d * 2 := pow_succ 2 d
  have := Nat.two_pow_pos d
  unfold posL posR
  omega

theorem scanOrd_total {ord : ScanPass → ℕ → List ℕ → List ℕ} (hord : ValidOrd ord) {P : α → Prop}
    {op : α → α → Py α} (hc : Closed P op) {a : List (Option α)} (hne : a ≠ [])
    (ha : ∀ x, some x ∈ a → P x) : ∃ r, myAssocScanOrd ord op a = .ok r := by
  have hpad := AllP_padded ha
  set L := Nat.clog 2 a.length with hL
  obtain ⟨b, hb, hPb⟩ := foldlM_total (I := AllP P (2 ^ L)) (l := List.range L)
    (f := fun a' d => (ord .up d (pyRangeStep (2 ^ L) (2 ^ (d + 1)))).foldlM (upStep op d) a') (by
      intro d hd x hx
      obtain ⟨y, hy, hPy⟩ := foldlM_total (I := AllP P (2 ^ L)) (f := localStep (posL d) (posR d) (gUp op))
        (l := ord .up d (pyRangeStep (2 ^ L) (2 ^ (d + 1)))) (by
          intro i hi z hz
          have := pos_lt (List.mem_range.1 hd) ((hord _ _ _).subset hi)
          exact localStep_total this.1 this.2 (gUp_total hc i) z hz) x hx
      exact ⟨y, (foldlM_ok_congr (fun a i b => upStep_iff op d a i b) _ _ _).2 hy, hPy⟩) _ hpad
  have hset : AllP P (2 ^ L) (b.set (2 ^ L - 1) none) := by
    refine ⟨by simpa using hPb.1, ?_⟩
    intro x hx
    rcases List.mem_or_eq_of_mem_set hx with h | h
    · exact hPb.2 x h
    · simp at h
  obtain ⟨c, hcc, hPc⟩ := foldlM_total (I := AllP P (2 ^ L)) (l := (List.range L).reverse)
    (f := fun a' d => (ord .down d (pyRangeStep (2 ^ L) (2 ^ (d + 1)))).foldlM (downStep op d) a') (by
      intro d hd x hx
      obtain ⟨y, hy, hPy⟩ := foldlM_total (I := AllP P (2 ^ L)) (f := localStep (posL d) (posR d) (gDown op))
        (l := ord .down d (pyRangeStep (2 ^ L) (2 ^ (d + 1)))) (by
          intro i hi z hz
          have := pos_lt (List.mem_range.1 (List.mem_reverse.1 hd)) ((hord _ _ _).subset hi)
          exact localStep_total this.1 this.2 (gDown_total hc i) z hz) x hx
      exact ⟨y, (foldlM_ok_congr (fun a i b => downStep_iff op d a i b) _ _ _).2 hy, hPy⟩) _ hset
  obtain ⟨e, he, _⟩ := foldlM_total (I := AllP P (2 ^ L)) (f := localStep (fun i => i) (fun i => i) (gExtra op (padded a)))
    (l := ord .extra 0 (List.range (2 ^ L))) (by
      intro i hi z hz
      have := List.mem_range.1 ((hord _ _ _).subset hi)
      exact localStep_total this this (gExtra_total hc hpad i this) z hz) c hPc
  refine ⟨e.take a.length, (scanOrd_iff ord op a _).2 ⟨by simpa using hne, b, c, e, hb, hcc, ?_, ?_, rfl⟩⟩
  · rw [← hL, hPb.1]; have := Nat.two_pow_pos L; omega
  · exact (foldlM_ok_congr (extraStep_iff op (padded a)) _ _ _).2 he

theorem foldlM_congr_ok {f g : β → ι → Py β} {l : List ι} (h : ∀ i ∈ l, ∀ a b, f a i = .ok b ↔ g a i = .ok b) :
    ∀ (a b : β), l.foldlM f a = .ok b ↔ l.foldlM g a = .ok b := by
  induction l with
  | nil => intro a b; simp
  | cons i l ih =>
    intro a b
    simp only [List.foldlM_cons, bind_ok]
    constructor
    · rintro ⟨c, h1, h2⟩
      exact ⟨c, (h i (by simp) a c).1 h1, (ih (fun j hj => h j (by simp [hj])) c b).1 h2⟩
    · rintro ⟨c, h1, h2⟩
      exact ⟨c, (h i (by simp) a c).2 h1, (ih (fun j hj => h j (by simp [hj])) c b).2 h2⟩

/-- The order of the iterations of the parallel loops does not matter. -/
theorem scanOrd_perm {ord₁ ord₂ : ScanPass → ℕ → List ℕ → List ℕ} (h₁ : ValidOrd ord₁) (h₂ : ValidOrd ord₂)
    (op : α → α → Py α) (a r : List (Option α)) :
    myAssocScanOrd ord₁ op a = .ok r ↔ myAssocScanOrd ord₂ op a = .ok r := by
  rw [scanOrd_iff, scanOrd_iff]
  have hup : ∀ b, _ ↔ _ := fun b => foldlM_congr_ok (l := List.range (Nat.clog 2 a.length))
    (f := fun a' d => (ord₁ .up d (pyRangeStep (2 ^ Nat.clog 2 a.length) (2 ^ (d + 1)))).foldlM (upStep op d) a')
    (g := fun a' d => (ord₂ .up d (pyRangeStep (2 ^ Nat.clog 2 a.length) (2 ^ (d + 1)))).foldlM (upStep op d) a')
    (fun d _ x y => (up_level_iff op _ d _ (h₁ _ _ _) x y).trans (up_level_iff op _ d _ (h₂ _ _ _) x y).symm)
    (padded a) b
  have hdown : ∀ b c, _ ↔ _ := fun b c => foldlM_congr_ok (l := (List.range (Nat.clog 2 a.length)).reverse)
    (f := fun a' d => (ord₁ .down d (pyRangeStep (2 ^ Nat.clog 2 a.length) (2 ^ (d + 1)))).foldlM (downStep op d) a')
    (g := fun a' d => (ord₂ .down d (pyRangeStep (2 ^ Nat.clog 2 a.length) (2 ^ (d + 1)))).foldlM (downStep op d) a')
    (fun d _ x y => (down_level_iff op _ d _ (h₁ _ _ _) x y).trans (down_level_iff op _ d _ (h₂ _ _ _) x y).symm)
    b c
  simp only [hup, hdown, extra_level_iff op (padded a) _ _ (h₁ .extra 0 _),
    extra_level_iff op (padded a) _ _ (h₂ .extra 0 _)]

theorem scanOrd_nil (ord : ScanPass → ℕ → List ℕ → List ℕ) (op : α → α → Py α) :
    myAssocScanOrd ord op [] = .error .valueError := rfl

theorem validOrd_id : ValidOrd (fun _ _ l => l) := fun _ _ l => List.Perm.refl l

/-! ### Reversal -/

theorem paren_swap {op : α → α → Py α} {l : List α} {v : α} (h : Paren op l v) :
    Paren (fun x y => op y x) l.reverse v := by
  induction h with
  | single x => exact Paren.single x
  | node _ _ ho ih1 ih2 => rw [List.reverse_append]; exact Paren.node ih2 ih1 ho

theorem seg_swap {op : α → α → Py α} {l : List (Option α)} {v : Option α}
    (h : Seg (fun x y => op y x) l.reverse v) : Seg op l v := by
  cases v with
  | none => simpa [Seg, List.reduceOption, List.filterMap_reverse] using h
  | some v =>
    have h1 : Paren (fun x y => op y x) l.reverse.reduceOption v := h
    have := paren_swap h1
    simpa [Seg, List.reduceOption, List.filterMap_reverse] using this

theorem scan_prefix {op : α → α → Py α} {a r : List (Option α)} (h : myAssocScan op a = .ok r) :
    r.length = a.length ∧ ∀ k < a.length, ∃ v, r[k]? = some v ∧ Seg op (a.take (k + 1)) v :=
  scanOrd_prefix validOrd_id (by simpa [myAssocScan] using h)

theorem scan_suffix {op : α → α → Py α} {a r : List (Option α)} (h : myAssocScan op a true = .ok r) :
    r.length = a.length ∧ ∀ k < a.length, ∃ v, r[k]? = some v ∧ Seg op (a.drop k) v := by
  unfold myAssocScan at h
  rw [if_pos rfl, bind_ok] at h
  obtain ⟨r', h1, h2⟩ := h
  simp only [pure, Except.pure, Except.ok.injEq] at h2
  subst h2
  have := scanOrd_prefix validOrd_id h1
  rw [List.length_reverse] at this
  refine ⟨by simpa using this.1, ?_⟩
  intro k hk
  obtain ⟨v, hv, hs⟩ := this.2 (a.length - 1 - k) (by omega)
  refine ⟨v, ?_, ?_⟩
  · rw [List.getElem?_reverse (by omega), this.1, hv]
  · apply seg_swap
    rw [List.take_reverse] at hs
    have e : a.length - (a.length - 1 - k + 1) = k := by omega
    rwa [e] at hs

theorem scan_total {P : α → Prop} {op : α → α → Py α} (hc : Closed P op) {a : List (Option α)} (hne : a ≠ [])
    (ha : ∀ x, some x ∈ a → P x) (rev : Bool) : ∃ r, myAssocScan op a rev = .ok r := by
  cases rev with
  | false => simpa [myAssocScan] using scanOrd_total validOrd_id hc hne ha
  | true =>
    have hc' : Closed P (fun x y => op y x) := fun x y hx hy => hc y x hy hx
    obtain ⟨r, hr⟩ := scanOrd_total validOrd_id hc' (a := a.reverse) (by simpa using hne)
      (fun x hx => ha x (by simpa using hx))
    exact ⟨r.reverse, by simp [myAssocScan, hr, bind, Except.bind, pure, Except.pure]⟩

/-! ### Lists without `None` -/

theorem unwrapItems_ok {l : List (Option α)} {r : List α} : unwrapItems l = .ok r ↔ l = r.map some := by
  induction l generalizing r with
  | nil => cases r <;> simp [unwrapItems]
  | cons x l ih =>
    cases x with
    | none => cases r <;> simp [unwrapItems]
    | some x =>
      rw [unwrapItems, bind_ok]
      cases r with
      | nil => simp [pure, Except.pure]
      | cons y r => simp [pure, Except.pure, ih]; tauto

theorem scanVals_ok {op : α → α → Py α} {a r : List α} {rev : Bool} :
    scanVals op a rev = .ok r ↔ myAssocScan op (a.map some) rev = .ok (r.map some) := by
  unfold scanVals
  rw [bind_ok]
  constructor
  · rintro ⟨y, h1, h2⟩; rw [unwrapItems_ok] at h2; rw [h1, h2]
  · intro h; exact ⟨_, h, unwrapItems_ok.2 rfl⟩

theorem reduceOption_map_some (l : List α) : (l.map some).reduceOption = l := by
  induction l with
  | nil => rfl
  | cons x l ih => simp [ih]

theorem scanVals_prefix {op : α → α → Py α} {a r : List α} (h : scanVals op a = .ok r) :
    r.length = a.length ∧ ∀ k < a.length, ∃ v, r[k]? = some v ∧ Paren op (a.take (k + 1)) v := by
  have := scan_prefix (scanVals_ok.1 h)
  simp only [List.length_map] at this
  refine ⟨this.1, fun k hk => ?_⟩
  obtain ⟨v, hv, hs⟩ := this.2 k hk
  rw [List.getElem?_map] at hv
  cases hr : r[k]? with
  | none => simp [hr] at hv
  | some w =>
    rw [hr] at hv
    simp only [Option.map_some, Option.some.injEq] at hv
    subst hv
    refine ⟨w, rfl, ?_⟩
    rw [← List.map_take] at hs
    simpa only [Seg, reduceOption_map_some] using hs

theorem scanVals_suffix {op : α → α → Py α} {a r : List α} (h : scanVals op a true = .ok r) :
    r.length = a.length ∧ ∀ k < a.length, ∃ v, r[k]? = some v ∧ Paren op (a.drop k) v := by
  have := scan_suffix (scanVals_ok.1 h)
  simp only [List.length_map] at this
  refine ⟨this.1, fun k hk => ?_⟩
  obtain ⟨v, hv, hs⟩ := this.2 k hk
  rw [List.getElem?_map] at hv
  cases hr : r[k]? with
  | none => simp [hr] at hv
  | some w =>
    rw [hr] at hv
    simp only [Option.map_some, Option.some.injEq] at hv
    subst hv
    refine ⟨w, rfl, ?_⟩
    rw [← List.map_drop] at hs
    simpa only [Seg, reduceOption_map_some] using hs

theorem all_some {l : List (Option α)} (h : ∀ k < l.length, ∃ v, l[k]? = some (some v)) :
    ∃ r : List α, l = r.map some := by
  induction l with
  | nil => exact ⟨[], rfl⟩
  | cons x l ih =>
    obtain ⟨v, hv⟩ := h 0 (by simp)
    obtain ⟨r, hr⟩ := ih (fun k hk => by simpa using h (k + 1) (by simpa using hk))
    refine ⟨v :: r, ?_⟩
    simp at hv
    simp [hv, hr]

/-- On lists without `None`, the scan's items can be used: no `None` remains. -/
theorem scanVals_eq {op : α → α → Py α} {a : List α} {rev : Bool} {s : List (Option α)}
    (h : myAssocScan op (a.map some) rev = .ok s) : ∃ r, scanVals op a rev = .ok r ∧ s = r.map some := by
  have key : ∀ k < s.length, ∃ v, s[k]? = some (some v) := by
    intro k hk
    cases rev with
    | false =>
      have := scan_prefix h
      rw [List.length_map] at this
      obtain ⟨v, hv, hs⟩ := this.2 k (by omega)
      cases v with
      | some v => exact ⟨v, hv⟩
      | none =>
        rw [← List.map_take] at hs
        simp only [Seg, reduceOption_map_some] at hs
        have h3 := congrArg List.length hs
        simp only [List.length_take, List.length_drop, List.length_nil] at h3
        omega
    | true =>
      have := scan_suffix h
      rw [List.length_map] at this
      obtain ⟨v, hv, hs⟩ := this.2 k (by omega)
      cases v with
      | some v => exact ⟨v, hv⟩
      | none =>
        rw [← List.map_drop] at hs
        simp only [Seg, reduceOption_map_some] at hs
        have h3 := congrArg List.length hs
        simp only [List.length_take, List.length_drop, List.length_nil] at h3
        omega
  obtain ⟨r, rfl⟩ := all_some key
  exact ⟨r, scanVals_ok.2 h, rfl⟩

theorem scanVals_total {P : α → Prop} {op : α → α → Py α} (hc : Closed P op) {a : List α} (hne : a ≠ [])
    (ha : ∀ x ∈ a, P x) (rev : Bool) : ∃ r, scanVals op a rev = .ok r := by
  obtain ⟨s, hs⟩ := scan_total hc (a := a.map some) (by simpa using hne)
    (fun x hx => by
      obtain ⟨y, hy, e⟩ := List.mem_map.1 hx
      cases e; exact ha _ hy) rev
  obtain ⟨r, hr, _⟩ := scanVals_eq hs
  exact ⟨r, hr⟩

theorem scanVals_nil (op : α → α → Py α) (rev : Bool) : scanVals op [] rev = .error .valueError := by
  cases rev <;> rfl

/-! ### Associative operations -/

theorem Paren.ne_nil {op : α → α → Py α} {l : List α} {v : α} (h : Paren op l v) : l ≠ [] := by
  induction h with
  | single x => simp
  | node _ _ _ ih1 _ => simp [ih1]

theorem Paren.prop {P : α → Prop} {op : α → α → Py α} {l : List α} {v : α} (h : Paren op l v)
    (hP : ∀ x y z, P x → P y → op x y = .ok z → P z) (hl : ∀ x ∈ l, P x) : P v := by
  induction h with
  | single x => exact hl x (by simp)
  | node _ _ ho ih1 ih2 =>
    exact hP _ _ _ (ih1 (fun x hx => hl x (by simp [hx]))) (ih2 (fun x hx => hl x (by simp [hx]))) ho

theorem foldl_assoc_on {P : α → Prop} {g : α → α → α} (hcl : ∀ x y, P x → P y → P (g x y))
    (hassoc : ∀ x y z, P x → P y → P z → g (g x y) z = g x (g y z)) :
    ∀ (l : List α) (x y : α), P x → P y → (∀ z ∈ l, P z) → l.foldl g (g x y) = g x (l.foldl g y) := by
  intro l
  induction l with
  | nil => intros; rfl
  | cons z l ih =>
    intro x y hx hy hl
    simp only [List.foldl_cons]
    rw [hassoc x y z hx hy (hl z (by simp))]
    exact ih x (g y z) hx (hcl y z hy (hl z (by simp))) (fun w hw => hl w (by simp [hw]))

theorem foldl_prop {P : α → Prop} {g : α → α → α} (hcl : ∀ x y, P x → P y → P (g x y)) :
    ∀ (l : List α) (x : α), P x → (∀ z ∈ l, P z) → P (l.foldl g x) := by
  intro l
  induction l with
  | nil => intro x hx _; exact hx
  | cons z l ih =>
    intro x hx hl
    exact ih _ (hcl x z hx (hl z (by simp))) (fun w hw => hl w (by simp [hw]))

theorem paren_foldl1 {P : α → Prop} {op : α → α → Py α} {g : α → α → α}
    (hop : ∀ x y, P x → P y → op x y = .ok (g x y))
    (hcl : ∀ x y, P x → P y → P (g x y))
    (hassoc : ∀ x y z, P x → P y → P z → g (g x y) z = g x (g y z))
    {l : List α} {v : α} (h : Paren op l v) (hl : ∀ x ∈ l, P x) : foldl1 g l = some v := by
  have hP : ∀ x y z, P x → P y → op x y = .ok z → P z := by
    intro x y z hx hy h
    rw [hop x y hx hy] at h
    cases h; exact hcl x y hx hy
  induction h with
  | single x => rfl
  | @node l r x y z h1 h2 ho ih1 ih2 =>
    have hPl : ∀ x ∈ l, P x := fun x hx => hl x (by simp [hx])
    have hPr : ∀ x ∈ r, P x := fun x hx => hl x (by simp [hx])
    have e1 := ih1 hPl
    have e2 := ih2 hPr
    have hx := h1.prop hP hPl
    have hy := h2.prop hP hPr
    rw [hop x y hx hy] at ho
    cases ho
    cases l with
    | nil => exact absurd rfl h1.ne_nil
    | cons a l =>
      cases r with
      | nil => exact absurd rfl h2.ne_nil
      | cons b r =>
        simp only [foldl1, Option.some.injEq, List.cons_append, List.foldl_append, List.foldl_cons] at *
        rw [e1, ← e2]
        exact foldl_assoc_on hcl hassoc r x b hx (hPr b (by simp)) (fun z hz => hPr z (by simp [hz]))

theorem foldr1_eq_foldl1 {P : α → Prop} {g : α → α → α}
    (hcl : ∀ x y, P x → P y → P (g x y))
    (hassoc : ∀ x y z, P x → P y → P z → g (g x y) z = g x (g y z))
    {l : List α} (hl : ∀ x ∈ l, P x) : foldr1 g l = foldl1 g l := by
  induction l with
  | nil => rfl
  | cons x l ih =>
    have := ih (fun y hy => hl y (by simp [hy]))
    cases l with
    | nil => rfl
    | cons y l =>
      rw [foldr1, this]
      simp only [foldl1, List.foldl_cons, Option.some.injEq]
      exact (foldl_assoc_on hcl hassoc l x y (hl x (by simp)) (hl y (by simp))
        (fun z hz => hl z (by simp [hz]))).symm

end Verif
