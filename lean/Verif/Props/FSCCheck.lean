import Verif.Model.FSCCheck
import Verif.Proof.ScanTotal

/-!
# C12: the finite-state model constructor `FSC.checkAndExpand`
-/

namespace Verif

variable {ι κ α : Type}

/-- `r` is the argument `a` as a list of `N` arrays: the list itself (which must have `N` entries) or `N`
copies of the array. -/
def ListOr.IsExpansion : ListOr α → ℕ → List α → Prop
  | .list l, N, r => r = l ∧ l.length = N
  | .one a, N, r => r.length = N ∧ ∀ b ∈ r, b = a

/-- The argument is a single array. -/
def ListOr.IsOne : ListOr α → Prop
  | .list _ => False
  | .one _ => True

/-- The inputs that `FSC.checkAndExpand` must accept and the object it must return. -/
def FSCWellShaped (one : κ) (f : ListOr (NArr2 ι)) (L : ListOr (NArr2 κ)) (LT : Option (NArr1 κ)) (T : Option ℤ)
    (r : RawFSC ι κ) : Prop :=
  ∃ N x u : ℕ, 0 < N ∧ (f.IsOne → L.IsOne → T = some (N : ℤ)) ∧ f.IsExpansion N r.f ∧ L.IsExpansion N r.L ∧
    (∀ a ∈ r.f, a.rows = x ∧ a.cols = u) ∧ (∀ a ∈ r.L, a.rows = x ∧ a.cols = u) ∧ r.LT.len = x ∧
    (∀ a, LT = some a → r.LT = a) ∧ (LT = none → ∀ i, r.LT.data i = one)

theorem forM_shape_ok (xdim udim : ℕ) (l : List (NArr2 ι × NArr2 κ)) :
    l.forM (fscShapeStep xdim udim) = .ok () ↔
      ∀ p ∈ l, (p.1.rows = xdim ∧ p.1.cols = udim) ∧ p.2.rows = xdim ∧ p.2.cols = udim := by
  induction l with
  | nil => simp [pure, Except.pure]
  | cons p l ih =>
    have hc : (p :: l).forM (fscShapeStep xdim udim) =
        (fscShapeStep xdim udim p >>= fun _ => l.forM (fscShapeStep xdim udim)) := rfl
    rw [hc]
    constructor
    · intro h
      obtain ⟨_, h1, h2⟩ := bind_ok.1 h
      rw [ih] at h2
      intro q hq
      rcases List.mem_cons.1 hq with rfl | hq
      · unfold fscShapeStep at h1
        split at h1
        · cases h1
        · split at h1
          · cases h1
          · rename_i ha hb
            push Not at ha hb
            exact ⟨ha, hb⟩
      · exact h2 q hq
    · intro h
      have hp := h p (by simp)
      have : fscShapeStep xdim udim p = .ok () := by
        unfold fscShapeStep
        rw [if_neg (by push Not; exact hp.1), if_neg (by push Not; exact hp.2)]
      rw [this]
      exact ih.2 (fun q hq => h q (by simp [hq]))

theorem forM_shape_err (xdim udim : ℕ) (l : List (NArr2 ι × NArr2 κ)) {e : PyErr}
    (h : l.forM (fscShapeStep xdim udim) = .error e) : e = .valueError := by
  induction l with
  | nil => simp [pure, Except.pure] at h
  | cons p l ih =>
    replace h : (fscShapeStep xdim udim p >>= fun _ => l.forM (fscShapeStep xdim udim)) = .error e := h
    cases hp : fscShapeStep xdim udim p with
    | ok u => rw [hp] at h; exact ih h
    | error e' =>
      rw [hp] at h
      have : e' = e := by simpa [bind, Except.bind] using h
      subst this
      unfold fscShapeStep at hp
      split at hp
      · cases hp; rfl
      · split at hp
        · cases hp; rfl
        · cases hp

theorem zip_mem_iff {A B : Type} {P : A → Prop} {Q : B → Prop} {l : List A} {r : List B} (h : l.length = r.length) :
    (∀ p ∈ l.zip r, P p.1 ∧ Q p.2) ↔ (∀ a ∈ l, P a) ∧ ∀ b ∈ r, Q b := by
  induction l generalizing r with
  | nil => cases r with
    | nil => simp
    | cons => simp at h
  | cons a l ih =>
    cases r with
    | nil => simp at h
    | cons b r =>
      simp only [List.zip_cons_cons, List.forall_mem_cons, ih (by simpa using h)]
      tauto

/-- Body after the horizon is known. -/
theorem fscCheck_body (one : κ) (f : ListOr (NArr2 ι)) (L : ListOr (NArr2 κ)) (LT : Option (NArr1 κ)) (T : Option ℤ)
    {N : ℤ} (hN : fscHorizon f L T = .ok N) (r : RawFSC ι κ) :
    fscCheckAndExpand one f L LT T = .ok r ↔
      (f.expand N).length = (L.expand N).length ∧ ∃ f0 fs, f.expand N = f0 :: fs ∧
        (∀ p ∈ (f.expand N).zip (L.expand N), (p.1.rows = f0.rows ∧ p.1.cols = f0.cols) ∧ p.2.rows = f0.rows ∧
          p.2.cols = f0.cols) ∧
        f0.rows = (LT.getD ⟨f0.rows, fun _ => one⟩).len ∧
        r = ⟨f.expand N, L.expand N, LT.getD ⟨f0.rows, fun _ => one⟩⟩ := by
  unfold fscCheckAndExpand
  rw [hN]
  simp only [bind, Except.bind]
  by_cases hl : (f.expand N).length = (L.expand N).length
  · rw [if_neg (by simpa using hl)]
    simp only [pure, Except.pure]
    cases hf : f.expand N with
    | nil => simp [throw, throwThe, MonadExceptOf.throw]
    | cons f0 fs =>
      simp only
      rw [hf] at hl
      cases hm : List.forM ((f0 :: fs).zip (L.expand N)) (fscShapeStep f0.rows f0.cols) with
      | error e =>
        simp only
        constructor
        · intro h; cases h
        · rintro ⟨_, g0, gs, hg, hz, _⟩
          cases hg
          rw [(forM_shape_ok _ _ _).2 hz] at hm
          cases hm
      | ok u =>
        have hz := (forM_shape_ok _ _ _).1 hm
        simp only
        by_cases hLT : f0.rows = (LT.getD ⟨f0.rows, fun _ => one⟩).len
        · rw [if_neg (by simpa using hLT)]
          constructor
          · intro h
            refine ⟨hl, f0, fs, rfl, hz, hLT, ?_⟩
            simpa using h.symm
          · rintro ⟨_, g0, gs, hg, _, _, hr⟩
            cases hg
            rw [hr]
        · rw [if_pos (by simpa using hLT)]
          constructor
          · intro h; simp [throw, throwThe, MonadExceptOf.throw] at h
          · rintro ⟨_, g0, gs, hg, _, h, _⟩
            cases hg
            exact absurd h hLT
  · rw [if_pos (by simpa using hl)]
    constructor
    · intro h; simp [throw, throwThe, MonadExceptOf.throw] at h
    · rintro ⟨h, _⟩; exact absurd h hl

/-- **C12** (success): `checkAndExpand` returns `r` exactly when the inputs are well shaped and `r` is their
expansion. -/
theorem C12_ok_iff (one : κ) (f : ListOr (NArr2 ι)) (L : ListOr (NArr2 κ)) (LT : Option (NArr1 κ)) (T : Option ℤ)
    (r : RawFSC ι κ) : fscCheckAndExpand one f L LT T = .ok r ↔ FSCWellShaped one f L LT T r := by
  have expOne : ∀ {β : Type} (a : β) (N : ℕ) (l : List β), (l.length = N ∧ ∀ b ∈ l, b = a) ↔ l = List.replicate N a :=
    fun a N l => List.eq_replicate_iff.symm
  constructor
  · intro h
    cases hN : fscHorizon f L T with
    | error e =>
      unfold fscCheckAndExpand at h
      rw [hN] at h
      cases h
    | ok N =>
      obtain ⟨hl, f0, fs, hf, hz, hLT, rfl⟩ := (fscCheck_body one f L LT T hN r).1 h
      have hlen : 0 < (f.expand N).length := by rw [hf]; simp
      obtain ⟨z1, z2⟩ := (zip_mem_iff (P := fun a => a.rows = f0.rows ∧ a.cols = f0.cols)
        (Q := fun b => b.rows = f0.rows ∧ b.cols = f0.cols) hl).1 hz
      refine ⟨(f.expand N).length, f0.rows, f0.cols, hlen, ?_, ?_, ?_, z1, z2, hLT.symm, ?_, ?_⟩
      · intro h1 h2
        cases f with
        | list _ => exact h1.elim
        | one f =>
          cases L with
          | list _ => exact h2.elim
          | one L =>
            cases T with
            | none => cases hN
            | some T =>
              have : T = N := by simpa [fscHorizon] using hN
              subst this
              simp only [ListOr.expand, List.length_replicate] at hlen ⊢
              congr 1; omega
      · cases f with
        | list l => exact ⟨rfl, rfl⟩
        | one f => exact (expOne _ _ _).2 (by simp [ListOr.expand])
      · cases L with
        | list l => exact ⟨rfl, hl.symm⟩
        | one L => exact (expOne _ _ _).2 (by rw [hl]; simp [ListOr.expand])
      · rintro a rfl; rfl
      · rintro rfl i; rfl
  · rintro ⟨N, x, u, hpos, hT, hf, hL, hfs, hLs, hLTl, hLT1, hLT2⟩
    have hN : ∃ M : ℤ, fscHorizon f L T = .ok M ∧ f.expand M = r.f ∧ L.expand M = r.L := by
      cases f with
      | list l =>
        refine ⟨l.length, rfl, hf.1.symm, ?_⟩
        cases L with
        | list l' => exact hL.1.symm
        | one a => rw [(expOne _ _ _).1 hL, hf.2]; simp [ListOr.expand]
      | one a =>
        cases L with
        | list l' =>
          refine ⟨l'.length, rfl, ?_, hL.1.symm⟩
          rw [(expOne _ _ _).1 hf, hL.2]; simp [ListOr.expand]
        | one b =>
          refine ⟨N, ?_, ?_, ?_⟩
          · rw [hT trivial trivial]; rfl
          · rw [(expOne _ _ _).1 hf]; simp [ListOr.expand]
          · rw [(expOne _ _ _).1 hL]; simp [ListOr.expand]
    obtain ⟨M, hM, e1, e2⟩ := hN
    rw [fscCheck_body one f L LT T hM r, e1, e2]
    have l1 : r.f.length = N := by
      cases f with
      | list l => rw [hf.1]; exact hf.2
      | one a => exact hf.1
    have l2 : r.L.length = N := by
      cases L with
      | list l => rw [hL.1]; exact hL.2
      | one a => exact hL.1
    refine ⟨l1.trans l2.symm, ?_⟩
    cases hr : r.f with
    | nil => rw [hr] at l1; simp at l1; omega
    | cons f0 fs =>
      have h0 := hfs f0 (by rw [hr]; simp)
      have hLTeq : LT.getD ⟨f0.rows, fun _ => one⟩ = r.LT := by
        cases LT with
        | some a => exact (hLT1 a rfl).symm
        | none =>
          have := hLT2 rfl
          rcases hrl : r.LT with ⟨len, data⟩
          rw [hrl] at this hLTl
          simp only at this hLTl
          have e : f0.rows = len := h0.1.trans hLTl.symm
          subst e
          simp only [Option.getD_none, NArr1.mk.injEq, heq_eq_eq, true_and]
          funext i; exact (this i).symm
      refine ⟨f0, fs, rfl, ?_, ?_, ?_⟩
      · rw [← hr, zip_mem_iff (P := fun a => a.rows = f0.rows ∧ a.cols = f0.cols)
          (Q := fun b => b.rows = f0.rows ∧ b.cols = f0.cols) (l1.trans l2.symm)]
        rw [h0.1, h0.2]
        exact ⟨hfs, hLs⟩
      · rw [hLTeq, hLTl, h0.1]
      · rw [hLTeq, ← hr]

/-- **C12** (errors): the only exceptions are `ValueError` and `IndexError`; `IndexError` is raised exactly
when the horizon is determined and both lists come out empty (an empty list, or `T ≤ 0`). -/
theorem C12_errors (one : κ) (f : ListOr (NArr2 ι)) (L : ListOr (NArr2 κ)) (LT : Option (NArr1 κ)) (T : Option ℤ) :
    (∀ e, fscCheckAndExpand one f L LT T = .error e → e = .valueError ∨ e = .indexError) ∧
    (fscCheckAndExpand one f L LT T = .error .indexError ↔
      f.IsExpansion 0 [] ∧ L.IsExpansion 0 [] ∧ (f.IsOne → L.IsOne → ∃ t : ℤ, T = some t ∧ t ≤ 0)) := by
  have hmain : ∀ e, fscCheckAndExpand one f L LT T = .error e →
      e = .valueError ∨ e = .indexError ∧ ∃ N, fscHorizon f L T = .ok N ∧ f.expand N = [] ∧ L.expand N = [] := by
    intro e h
    unfold fscCheckAndExpand at h
    cases hN : fscHorizon f L T with
    | error e' =>
      rw [hN] at h
      have : e' = e := by simpa [bind, Except.bind] using h
      subst this
      left
      unfold fscHorizon at hN
      split at hN <;> cases hN
      rfl
    | ok N =>
      rw [hN] at h
      simp only [bind, Except.bind] at h
      split at h
      · left; simpa [throw, throwThe, MonadExceptOf.throw] using h.symm
      · rename_i hl
        simp only [ne_eq, not_not] at hl
        simp only [pure, Except.pure] at h
        split at h
        · rename_i hf
          right
          refine ⟨by simpa [throw, throwThe, MonadExceptOf.throw] using h.symm, N, rfl, hf, ?_⟩
          rw [hf] at hl
          exact List.length_eq_zero_iff.1 hl.symm
        · rename_i f0 fs hf
          left
          split at h
          · rename_i e' hm
            have : e' = e := by simpa using h
            subst this
            exact forM_shape_err _ _ _ hm
          · split at h
            · simpa [throw, throwThe, MonadExceptOf.throw] using h.symm
            · cases h
  refine ⟨fun e h => (hmain e h).imp id And.left, ?_⟩
  constructor
  · intro h
    rcases hmain _ h with h' | ⟨_, N, hN, hf, hL⟩
    · cases h'
    · refine ⟨?_, ?_, ?_⟩
      · cases f with
        | list l => exact ⟨hf.symm, by rw [show l = [] from hf]; rfl⟩
        | one a => exact ⟨rfl, by simp⟩
      · cases L with
        | list l => exact ⟨hL.symm, by rw [show l = [] from hL]; rfl⟩
        | one a => exact ⟨rfl, by simp⟩
      · intro h1 h2
        cases f with
        | list _ => exact h1.elim
        | one f =>
          cases L with
          | list _ => exact h2.elim
          | one L =>
            cases T with
            | none => cases hN
            | some T =>
              have : T = N := by simpa [fscHorizon] using hN
              subst this
              refine ⟨T, rfl, ?_⟩
              simpa [ListOr.expand] using hf
  · rintro ⟨hf, hL, hT⟩
    have : ∃ N, fscHorizon f L T = .ok N ∧ f.expand N = [] ∧ L.expand N = [] := by
      cases f with
      | list l =>
        obtain ⟨rfl, _⟩ := hf
        refine ⟨0, rfl, rfl, ?_⟩
        cases L with
        | list l' => exact hL.1.symm
        | one b => rfl
      | one a =>
        cases L with
        | list l' => obtain ⟨rfl, _⟩ := hL; exact ⟨0, rfl, rfl, rfl⟩
        | one b =>
          obtain ⟨t, rfl, ht⟩ := hT trivial trivial
          exact ⟨t, rfl, by simpa [ListOr.expand] using ht, by simpa [ListOr.expand] using ht⟩
    obtain ⟨N, hN, h1, h2⟩ := this
    unfold fscCheckAndExpand
    rw [hN]
    simp only [bind, Except.bind, h1, h2]
    rfl

/-- **C12** (`T` ignored): as soon as `f` or `L` is a list, the argument `T` has no influence. -/
theorem C12_T_ignored (one : κ) (f : ListOr (NArr2 ι)) (L : ListOr (NArr2 κ)) (LT : Option (NArr1 κ)) (T T' : Option ℤ)
    (h : ¬ (f.IsOne ∧ L.IsOne)) : fscCheckAndExpand one f L LT T = fscCheckAndExpand one f L LT T' := by
  unfold fscCheckAndExpand
  have : fscHorizon f L T = fscHorizon f L T' := by
    cases f with
    | list _ => rfl
    | one _ => cases L with
      | list _ => rfl
      | one _ => exact absurd ⟨trivial, trivial⟩ h
  rw [this]

/-- A 2×3 array used in the examples. -/
def exArr : NArr2 ℤ := ⟨2, 3, fun i j => i.val + j.val⟩

example : ∃ r, fscCheckAndExpand (1 : ℤ) (.one exArr) (.list [exArr, exArr, exArr]) none (some 7) = .ok r ∧
    r.f.length = 3 := ⟨_, rfl, rfl⟩
example : FSCWellShaped (1 : ℤ) (.one exArr) (.list [exArr, exArr]) none none
    ⟨[exArr, exArr], [exArr, exArr], ⟨2, fun _ => 1⟩⟩ := (C12_ok_iff ..).1 rfl
example : fscCheckAndExpand (1 : ℤ) (.one exArr) (.one exArr) none none = .error .valueError := rfl
example : fscCheckAndExpand (1 : ℤ) (.one exArr) (.one exArr) none (some (-2)) = .error .indexError := rfl
example : fscCheckAndExpand (1 : ℤ) (.one exArr) (.list [exArr, ⟨2, 2, fun _ _ => 0⟩]) none none =
    .error .valueError := rfl

end Verif
