import Verif.Proof.LocalSteps
import Mathlib.Tactic.Ring

/-!
The iterations of the three passes of `myAssocScan` are local steps.
-/

namespace Verif

variable {α β γ ι : Type*}

theorem foldlM_ok_congr {f g : β → ι → Py β} (h : ∀ a i b, f a i = .ok b ↔ g a i = .ok b) :
    ∀ (l : List ι) (a b : β), l.foldlM f a = .ok b ↔ l.foldlM g a = .ok b := by
  intro l
  induction l with
  | nil => intro a b; simp
  | cons i l ih =>
    intro a b
    simp only [List.foldlM_cons]
    constructor
    · intro hh
      cases h1 : f a i with
      | error e => simp [h1, bind, Except.bind] at hh
      | ok c =>
        simp only [h1, bind, Except.bind] at hh
        simp only [(h a i c).1 h1, bind, Except.bind]
        exact (ih c b).1 hh
    · intro hh
      cases h1 : g a i with
      | error e => simp [h1, bind, Except.bind] at hh
      | ok c =>
        simp only [h1, bind, Except.bind] at hh
        simp only [(h a i c).2 h1, bind, Except.bind]
        exact (ih c b).2 hh

/-- Combination treating `none` as an identity. -/
def optOp (op : α → α → Py α) : Option α → Option α → Py (Option α)
  | none, y => .ok y
  | x, none => .ok x
  | some x, some y => (op x y).map some

@[simp] theorem optOp_none_left (op : α → α → Py α) (y) : optOp op none y = .ok y := by
  cases y <;> rfl
@[simp] theorem optOp_none_right (op : α → α → Py α) (x) : optOp op x none = .ok x := by
  cases x <;> rfl
@[simp] theorem optOp_some (op : α → α → Py α) (x y) :
    optOp op (some x) (some y) = (op x y).map some := rfl

def posL (d i : ℕ) : ℕ := i + 2 ^ d - 1
def posR (d i : ℕ) : ℕ := i + 2 ^ (d + 1) - 1

def gUp (op : α → α → Py α) (_ : ℕ) (x y : Option α) : Py (Option α × Option α) :=
  (optOp op x y).map fun z => (x, z)
def gDown (op : α → α → Py α) (_ : ℕ) (t y : Option α) : Py (Option α × Option α) :=
  (optOp op y t).map fun z => (y, z)
def gExtra (op : α → α → Py α) (a0 : List (Option α)) (i : ℕ) (x y : Option α) :
    Py (Option α × Option α) := do
  let z ← pyGet a0 i
  (optOp op y z).map fun w => (x, w)

theorem set_same {a : List β} {i : ℕ} {x : β} (h : a[i]? = some x) : a.set i x = a := by
  apply List.ext_getElem?
  intro k
  rw [List.getElem?_set]
  by_cases hk : i = k
  · subst hk; rw [if_pos rfl, if_pos (List.getElem?_eq_some_iff.1 h).1, h]
  · rw [if_neg hk]

theorem pySet_ok {a b : List β} {i : ℕ} {v : β} : pySet a i v = .ok b ↔ i < a.length ∧ a.set i v = b := by
  unfold pySet; split <;> simp_all

theorem lt_of_get {a : List β} {i : ℕ} {x : β} (h : a[i]? = some x) : i < a.length :=
  (List.getElem?_eq_some_iff.1 h).1

theorem pos_ne (d i : ℕ) : posL d i ≠ posR d i := by
  unfold posL posR
  have : 0 < 2 ^ d := Nat.two_pow_pos d
  rw [pow_succ]; omega

theorem pySet_lt {a : List β} {i : ℕ} {v : β} (h : i < a.length) : pySet a i v = .ok (a.set i v) :=
  pySet_ok.2 ⟨h, rfl⟩

theorem pyGet_none {a : List β} {i : ℕ} (h : a[i]? = none) : pyGet a i = .error .indexError := by
  unfold pyGet; rw [h]

theorem localStep_get {p q : ι → ℕ} {g : ι → β → β → Py (β × β)} {a : List β} {i : ι} {x y : β}
    (hx : a[p i]? = some x) (hy : a[q i]? = some y) :
    localStep p q g a i = (g i x y).map fun r => (a.set (p i) r.1).set (q i) r.2 := by
  unfold localStep
  rw [pyGet_ok.2 hx, pyGet_ok.2 hy]
  cases h : g i x y <;> simp [bind, Except.bind, Except.map, h]

theorem upStep_iff (op : α → α → Py α) (d : ℕ) (a : List (Option α)) (i : ℕ) (b : List (Option α)) :
    upStep op d a i = .ok b ↔ localStep (posL d) (posR d) (gUp op) a i = .ok b := by
  unfold upStep
  change (do
    match ← pyGet a (posR d i) with
    | none => pySet a (posR d i) (← pyGet a (posL d i))
    | some y =>
      match ← pyGet a (posL d i) with
      | none => .ok a
      | some x => pySet a (posR d i) (some (← op x y))) = Except.ok b ↔ _
  cases hy : a[posR d i]? with
  | none => rw [localStep_ok]; simp only [pyGet_none hy, bind, Except.bind, hy]; simp
  | some y =>
    cases hx : a[posL d i]? with
    | none =>
      rw [localStep_ok]
      cases y <;> simp only [pyGet_none hx, pyGet_ok.2 hy, bind, Except.bind, hx] <;> simp
    | some x =>
      have hl := set_same hx
      have hr := set_same hy
      have hlt := lt_of_get hy
      rw [localStep_get hx hy]
      cases y with
      | none =>
        simp only [pyGet_ok.2 hx, pyGet_ok.2 hy, bind, Except.bind, gUp, pySet_lt hlt, optOp_none_right,
          Except.map, hl]
      | some y =>
        cases x with
        | none =>
          simp only [pyGet_ok.2 hx, pyGet_ok.2 hy, bind, Except.bind, gUp, optOp_none_left,
            Except.map, hl, hr]
        | some x =>
          cases ho : op x y <;>
            simp only [pyGet_ok.2 hx, pyGet_ok.2 hy, bind, Except.bind, gUp, optOp_some,
              Except.map, hl, ho, pySet_lt hlt]

theorem downStep_iff (op : α → α → Py α) (d : ℕ) (a : List (Option α)) (i : ℕ) (b : List (Option α)) :
    downStep op d a i = .ok b ↔ localStep (posL d) (posR d) (gDown op) a i = .ok b := by
  unfold downStep
  change (do
    let t ← pyGet a (posL d i)
    let a ← pySet a (posL d i) (← pyGet a (posR d i))
    match ← pyGet a (posR d i) with
    | none => pySet a (posR d i) t
    | some y =>
      match t with
      | none => .ok a
      | some t => pySet a (posR d i) (some (← op y t))) = Except.ok b ↔ _
  cases hx : a[posL d i]? with
  | none => rw [localStep_ok]; simp only [pyGet_none hx, bind, Except.bind, hx]; simp
  | some t =>
    cases hy : a[posR d i]? with
    | none => rw [localStep_ok]; simp only [pyGet_none hy, pyGet_ok.2 hx, bind, Except.bind, hy]; simp
    | some y =>
      have hlt := lt_of_get hy
      have hlx := lt_of_get hx
      have hne := pos_ne d i
      have hget : (a.set (posL d i) y)[posR d i]? = some y := by
        rw [List.getElem?_set, if_neg hne, hy]
      have hsr := set_same hget
      have hlt' : posR d i < (a.set (posL d i) y).length := by simpa using hlt
      rw [localStep_get hx hy]
      cases y with
      | none =>
        simp only [pyGet_ok.2 hx, pyGet_ok.2 hy, pyGet_ok.2 hget, bind, Except.bind, gDown, Except.map,
          pySet_lt hlt', pySet_lt hlx, optOp_none_left]
      | some y =>
        cases t with
        | none =>
          simp only [pyGet_ok.2 hx, pyGet_ok.2 hy, pyGet_ok.2 hget, bind, Except.bind, gDown, Except.map,
            pySet_lt hlx, optOp_none_right, hsr]
        | some t =>
          cases ho : op y t <;>
            simp only [pyGet_ok.2 hx, pyGet_ok.2 hy, pyGet_ok.2 hget, bind, Except.bind, gDown, Except.map,
              pySet_lt hlx, pySet_lt hlt', optOp_some, ho]

theorem extraStep_iff (op : α → α → Py α) (a0 a : List (Option α)) (i : ℕ) (b : List (Option α)) :
    extraStep op a0 a i = .ok b ↔ localStep (fun i => i) (fun i => i) (gExtra op a0) a i = .ok b := by
  unfold extraStep
  cases hy : a[i]? with
  | none => rw [localStep_ok]; simp only [pyGet_none hy, bind, Except.bind, hy]; simp
  | some y =>
    have hlt := lt_of_get hy
    have hr := set_same hy
    rw [localStep_get hy hy]
    cases hz : a0[i]? with
    | none =>
      cases y <;> simp only [pyGet_none hz, pyGet_ok.2 hy, bind, Except.bind, gExtra, Except.map]
    | some z =>
      cases y with
      | none =>
        simp only [pyGet_ok.2 hz, pyGet_ok.2 hy, bind, Except.bind, gExtra, Except.map, pySet_lt hlt,
          optOp_none_left, List.set_set]
      | some y =>
        cases z with
        | none =>
          simp only [pyGet_ok.2 hz, pyGet_ok.2 hy, bind, Except.bind, gExtra, Except.map,
            optOp_none_right, hr]
        | some z =>
          cases ho : op y z <;>
            simp only [pyGet_ok.2 hz, pyGet_ok.2 hy, bind, Except.bind, gExtra, Except.map, pySet_lt hlt,
              optOp_some, ho, List.set_set]

/-! ### Positions touched by different iterations are different -/

theorem mem_pyRangeStep {n s i : ℕ} (hs : 0 < s) : i ∈ pyRangeStep n s ↔ s ∣ i ∧ i < n := by
  unfold pyRangeStep
  rw [List.mem_range']
  constructor
  · rintro ⟨j, hj, rfl⟩
    refine ⟨⟨j, by simp⟩, ?_⟩
    have h1 : j + 1 ≤ (n + s - 1) / s := hj
    have h2 := (Nat.le_div_iff_mul_le hs).1 h1
    have h3 : (j + 1) * s = s * j + s := by ring
    omega
  · rintro ⟨⟨j, rfl⟩, hlt⟩
    refine ⟨j, ?_, by simp⟩
    have : j + 1 ≤ (n + s - 1) / s := by
      rw [Nat.le_div_iff_mul_le hs]
      have h3 : (j + 1) * s = s * j + s := by ring
      omega
    exact this

theorem nodup_pyRangeStep {n s : ℕ} (hs : 0 < s) : (pyRangeStep n s).Nodup := by
  unfold pyRangeStep
  exact List.nodup_range' s hs

theorem dvd_sep {s i j : ℕ} (hi : s ∣ i) (hj : s ∣ j) (h : i ≠ j) : i + s ≤ j ∨ j + s ≤ i := by
  obtain ⟨m, rfl⟩ := hi
  obtain ⟨k, rfl⟩ := hj
  have hmk : m ≠ k := fun e => h (by rw [e])
  rcases Nat.lt_or_gt_of_ne hmk with h | h
  · left
    calc s * m + s = s * (m + 1) := by ring
      _ ≤ s * k := Nat.mul_le_mul_left _ h
  · right
    calc s * k + s = s * (k + 1) := by ring
      _ ≤ s * m := Nat.mul_le_mul_left _ h

theorem pos_disjoint {d n i j : ℕ} (hi : i ∈ pyRangeStep n (2 ^ (d + 1)))
    (hj : j ∈ pyRangeStep n (2 ^ (d + 1))) (h : i ≠ j) :
    posL d i ≠ posL d j ∧ posL d i ≠ posR d j ∧ posR d i ≠ posL d j ∧ posR d i ≠ posR d j := by
  have hp : 0 < 2 ^ d := Nat.two_pow_pos d
  have hi' := ((mem_pyRangeStep (Nat.two_pow_pos (d + 1))).1 hi).1
  have hj' := ((mem_pyRangeStep (Nat.two_pow_pos (d + 1))).1 hj).1
  have := dvd_sep hi' hj' h
  unfold posL posR
  have h2 : 2 ^ (d + 1) = 2 ^ d * 2 := pow_succ 2 d
  rw [h2] at this ⊢
  omega

/-! ### Level outcomes -/

abbrev UpLevel (op : α → α → Py α) (n d : ℕ) := LevelRel (posL d) (posR d) (gUp op) (pyRangeStep n (2 ^ (d + 1)))
abbrev DownLevel (op : α → α → Py α) (n d : ℕ) :=
  LevelRel (posL d) (posR d) (gDown op) (pyRangeStep n (2 ^ (d + 1)))
abbrev ExtraLevel (op : α → α → Py α) (a0 : List (Option α)) (n : ℕ) :=
  LevelRel (fun i => i) (fun i => i) (gExtra op a0) (List.range n)

theorem up_level_iff (op : α → α → Py α) (n d : ℕ) (l : List ℕ) (hl : l.Perm (pyRangeStep n (2 ^ (d + 1))))
    (a b : List (Option α)) : l.foldlM (upStep op d) a = .ok b ↔ UpLevel op n d a b := by
  rw [foldlM_ok_congr (fun a i b => upStep_iff op d a i b), foldlM_local_iff]
  · exact ⟨fun h => h.perm hl, fun h => h.perm hl.symm⟩
  · exact hl.nodup_iff.2 (nodup_pyRangeStep (Nat.two_pow_pos _))
  · intro i hi j hj h
    exact pos_disjoint (hl.subset hi) (hl.subset hj) h

theorem down_level_iff (op : α → α → Py α) (n d : ℕ) (l : List ℕ) (hl : l.Perm (pyRangeStep n (2 ^ (d + 1))))
    (a b : List (Option α)) : l.foldlM (downStep op d) a = .ok b ↔ DownLevel op n d a b := by
  rw [foldlM_ok_congr (fun a i b => downStep_iff op d a i b), foldlM_local_iff]
  · exact ⟨fun h => h.perm hl, fun h => h.perm hl.symm⟩
  · exact hl.nodup_iff.2 (nodup_pyRangeStep (Nat.two_pow_pos _))
  · intro i hi j hj h
    exact pos_disjoint (hl.subset hi) (hl.subset hj) h

theorem extra_level_iff (op : α → α → Py α) (a0 : List (Option α)) (n : ℕ) (l : List ℕ)
    (hl : l.Perm (List.range n)) (a b : List (Option α)) :
    l.foldlM (extraStep op a0) a = .ok b ↔ ExtraLevel op a0 n a b := by
  rw [foldlM_ok_congr (fun a i b => extraStep_iff op a0 a i b), foldlM_local_iff]
  · exact ⟨fun h => h.perm hl, fun h => h.perm hl.symm⟩
  · exact hl.nodup_iff.2 List.nodup_range
  · intro i _ j _ h
    exact ⟨h, h, h, h⟩

end Verif
