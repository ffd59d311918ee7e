import Verif.Proof.ScanTotal

/-! Where the exceptions of a scan come from. -/

namespace Verif

universe u
variable {α : Type u} {β ι : Type*}

theorem foldlM_err {I : β → Prop} {Q : PyErr → Prop} {f : β → ι → Py β} {l : List ι}
    (hok : ∀ i ∈ l, ∀ a b, I a → f a i = .ok b → I b)
    (herr : ∀ i ∈ l, ∀ a e, I a → f a i = .error e → Q e) :
    ∀ a, I a → (∀ b, l.foldlM f a = .ok b → I b) ∧ ∀ e, l.foldlM f a = .error e → Q e := by
  induction l with
  | nil => intro a ha; simp [pure, Except.pure, ha]
  | cons i l ih =>
    intro a ha
    cases h : f a i with
    | error e =>
      simp only [List.foldlM_cons, h, bind, Except.bind]
      exact ⟨by simp, fun e' he => by cases he; exact herr i (by simp) a e ha h⟩
    | ok b =>
      simp only [List.foldlM_cons, h, bind, Except.bind]
      exact ih (fun j hj => hok j (by simp [hj])) (fun j hj => herr j (by simp [hj])) b
        (hok i (by simp) a b ha h)

/-- `op` raises `e` on some pair of arguments. -/
def OpErr (op : α → α → Py α) (e : PyErr) : Prop := ∃ x y, op x y = .error e

theorem localStep_len {p q : ι → ℕ} {g : ι → β → β → Py (β × β)} {a b : List β} {i : ι}
    (h : localStep p q g a i = .ok b) : b.length = a.length := by
  obtain ⟨x, y, x', y', _, _, _, rfl⟩ := localStep_ok.1 h
  simp

theorem upStep_err {op : α → α → Py α} {d : ℕ} {a : List (Option α)} {i : ℕ} {e : PyErr}
    (h1 : posL d i < a.length) (h2 : posR d i < a.length) (h : upStep op d a i = .error e) : OpErr op e := by
  unfold upStep at h
  change (do
    match ← pyGet a (posR d i) with
    | none => pySet a (posR d i) (← pyGet a (posL d i))
    | some y =>
      match ← pyGet a (posL d i) with
      | none => .ok a
      | some x => pySet a (posR d i) (some (← op x y))) = Except.error e at h
  have hx : a[posL d i]? = some a[posL d i] := List.getElem?_eq_getElem h1
  have hy : a[posR d i]? = some a[posR d i] := List.getElem?_eq_getElem h2
  rw [pyGet_ok.2 hx, pyGet_ok.2 hy] at h
  generalize a[posL d i] = x at *
  generalize a[posR d i] = y at *
  cases y with
  | none => simp [bind, Except.bind, pySet, h2] at h
  | some y =>
    cases x with
    | none => simp [bind, Except.bind] at h
    | some x =>
      cases ho : op x y with
      | ok z => simp [bind, Except.bind, ho, pySet, h2] at h
      | error e' => simp [bind, Except.bind, ho] at h; exact ⟨x, y, by rw [ho, h]⟩

theorem downStep_err {op : α → α → Py α} {d : ℕ} {a : List (Option α)} {i : ℕ} {e : PyErr}
    (h1 : posL d i < a.length) (h2 : posR d i < a.length) (h : downStep op d a i = .error e) : OpErr op e := by
  unfold downStep at h
  change (do
    let t ← pyGet a (posL d i)
    let a ← pySet a (posL d i) (← pyGet a (posR d i))
    match ← pyGet a (posR d i) with
    | none => pySet a (posR d i) t
    | some y =>
      match t with
      | none => .ok a
      | some t => pySet a (posR d i) (some (← op y t))) = Except.error e at h
  have hx : a[posL d i]? = some a[posL d i] := List.getElem?_eq_getElem h1
  have hy : a[posR d i]? = some a[posR d i] := List.getElem?_eq_getElem h2
  rw [pyGet_ok.2 hx, pyGet_ok.2 hy] at h
  generalize a[posL d i] = x at *
  generalize a[posR d i] = y at *
  have hne := pos_ne d i
  have hget : (a.set (posL d i) y)[posR d i]? = some y := by
    rw [List.getElem?_set, if_neg hne, hy]
  simp only [bind, Except.bind, pySet, h1, if_true, pyGet_ok.2 hget] at h
  cases y with
  | none => simp [h2] at h
  | some y =>
    cases x with
    | none => simp at h
    | some x =>
      cases ho : op y x with
      | ok z => simp [ho, h2] at h
      | error e' => simp [ho] at h; exact ⟨y, x, by rw [ho, h]⟩

theorem extraStep_err {op : α → α → Py α} {a0 a : List (Option α)} {i : ℕ} {e : PyErr}
    (h1 : i < a.length) (h2 : i < a0.length) (h : extraStep op a0 a i = .error e) : OpErr op e := by
  unfold extraStep at h
  have hx : a[i]? = some a[i] := List.getElem?_eq_getElem h1
  have hy : a0[i]? = some a0[i] := List.getElem?_eq_getElem h2
  rw [pyGet_ok.2 hx, pyGet_ok.2 hy] at h
  generalize a[i] = x at *
  generalize a0[i] = y at *
  cases x with
  | none => simp [bind, Except.bind, pySet, h1] at h
  | some x =>
    cases y with
    | none => simp [bind, Except.bind] at h
    | some y =>
      cases ho : op x y with
      | ok z => simp [bind, Except.bind, ho, pySet, h1] at h
      | error e' => simp [bind, Except.bind, ho] at h; exact ⟨x, y, by rw [ho, h]⟩

/-- A failing scan of a non-empty list fails because `op` failed. -/
theorem scanOrd_err {ord : ScanPass → ℕ → List ℕ → List ℕ} (hord : ValidOrd ord) {op : α → α → Py α}
    {a : List (Option α)} (hne : a ≠ []) {e : PyErr} (h : myAssocScanOrd ord op a = .error e) : OpErr op e := by
  have h0 : ¬ a.length = 0 := by simpa using hne
  unfold myAssocScanOrd at h
  simp only [h0, if_false, pure_bind] at h
  have hpad : (a ++ List.replicate (2 ^ Nat.clog 2 a.length - a.length) none).length = 2 ^ Nat.clog 2 a.length :=
    padded_length a
  generalize hL : Nat.clog 2 a.length = L at *
  generalize a ++ List.replicate (2 ^ L - a.length) none = a0 at *
  have hup := foldlM_err (I := fun b => b.length = 2 ^ L) (Q := OpErr op) (l := List.range L)
    (f := fun a' d => (ord .up d (pyRangeStep (2 ^ L) (2 ^ (d + 1)))).foldlM (upStep op d) a')
    (by
      intro d hd x y hx hxy
      have := ((up_level_iff op _ d _ (hord _ _ _) x y).1 hxy).len
      omega)
    (by
      intro d hd x e hx hxe
      refine (foldlM_err (I := fun b => b.length = 2 ^ L) ?_ ?_ x hx).2 e hxe
      · intro i _ y z hy hyz
        have := localStep_len ((upStep_iff op d y i z).1 hyz)
        omega
      · intro i hi y e hy hye
        have := pos_lt (List.mem_range.1 hd) ((hord _ _ _).subset hi)
        exact upStep_err (by omega) (by omega) hye) a0 hpad
  cases h1 : (List.range L).foldlM
      (fun a' d => (ord .up d (pyRangeStep (2 ^ L) (2 ^ (d + 1)))).foldlM (upStep op d) a') a0 with
  | error e' => simp only [h1, bind, Except.bind] at h; cases h; exact hup.2 _ h1
  | ok b =>
    have hb : b.length = 2 ^ L := hup.1 b h1
    have hlt : 2 ^ L - 1 < b.length := by have := Nat.two_pow_pos L; omega
    simp only [h1, bind, Except.bind, pySet_lt hlt] at h
    have hdown := foldlM_err (I := fun b => b.length = 2 ^ L) (Q := OpErr op) (l := (List.range L).reverse)
      (f := fun a' d => (ord .down d (pyRangeStep (2 ^ L) (2 ^ (d + 1)))).foldlM (downStep op d) a')
      (by
        intro d hd x y hx hxy
        have := ((down_level_iff op _ d _ (hord _ _ _) x y).1 hxy).len
        omega)
      (by
        intro d hd x e hx hxe
        refine (foldlM_err (I := fun b => b.length = 2 ^ L) ?_ ?_ x hx).2 e hxe
        · intro i _ y z hy hyz
          have := localStep_len ((downStep_iff op d y i z).1 hyz)
          omega
        · intro i hi y e hy hye
          have := pos_lt (List.mem_range.1 (List.mem_reverse.1 hd)) ((hord _ _ _).subset hi)
          exact downStep_err (by omega) (by omega) hye) (b.set (2 ^ L - 1) none) (by simpa using hb)
    cases h2 : (List.range L).reverse.foldlM
        (fun a' d => (ord .down d (pyRangeStep (2 ^ L) (2 ^ (d + 1)))).foldlM (downStep op d) a')
        (b.set (2 ^ L - 1) none) with
    | error e' => simp only [h2] at h; cases h; exact hdown.2 _ h2
    | ok c =>
      have hcl : c.length = 2 ^ L := hdown.1 c h2
      simp only [h2] at h
      have hex := foldlM_err (I := fun b => b.length = 2 ^ L) (Q := OpErr op)
        (l := ord .extra 0 (List.range (2 ^ L))) (f := extraStep op a0)
        (by
          intro i _ y z hy hyz
          have := localStep_len ((extraStep_iff op a0 y i z).1 hyz)
          omega)
        (by
          intro i hi y e hy hye
          have := List.mem_range.1 ((hord _ _ _).subset hi)
          exact extraStep_err (by omega) (by omega) hye) c hcl
      cases h3 : (ord .extra 0 (List.range (2 ^ L))).foldlM (extraStep op a0) c with
      | error e' => simp only [h3] at h; cases h; exact hex.2 _ h3
      | ok r => simp [h3, pure, Except.pure] at h

theorem scan_err {op : α → α → Py α} {a : List (Option α)} (hne : a ≠ []) {rev : Bool} {e : PyErr}
    (h : myAssocScan op a rev = .error e) : OpErr op e := by
  cases rev with
  | false => exact scanOrd_err validOrd_id hne (by simpa [myAssocScan] using h)
  | true =>
    unfold myAssocScan at h
    rw [if_pos rfl] at h
    cases h1 : myAssocScanOrd (fun _ _ l => l) (fun x y => op y x) a.reverse with
    | ok r => simp [h1, bind, Except.bind, pure, Except.pure] at h
    | error e' =>
      simp only [h1, bind, Except.bind] at h
      cases h
      obtain ⟨x, y, h2⟩ := scanOrd_err validOrd_id (by simpa using hne) h1
      exact ⟨y, x, h2⟩

end Verif
