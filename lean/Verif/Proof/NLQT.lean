import Verif.Model.NLQT
import Verif.Props.LQT
import Verif.Proof.LQTBatch
import Verif.Proof.LQTCheck

/-! Lemmas about the nonlinear tracker. -/

namespace Verif

open Matrix

variable {n m : ℕ} {K : Type} [Field K]

/-- The step linearised at `(x, u)`. -/
def NModel.lin (M : NModel n m K) (s : LStage n m K) (x : Fin n → K) (u : Fin m → K) : LStage n m K :=
  { s with F := M.Fx x u, c := M.f x u - M.Fx x u *ᵥ x - M.Fu x u *ᵥ u, L := M.Fu x u }

theorem NModel.lin_next (M : NModel n m K) (s : LStage n m K) (x : Fin n → K) (u : Fin m → K) :
    (M.lin s x u).next x u = M.f x u := by
  simp only [LStage.next, NModel.lin]
  abel

/-- The states after each control. -/
def NModel.run (M : NModel n m K) : (Fin n → K) → List (Fin m → K) → List (Fin n → K)
  | _, [] => []
  | x, u :: us => M.f x u :: M.run (M.f x u) us

theorem NModel.simulate_eq (M : NModel n m K) (x0 : Fin n → K) (us : List (Fin m → K)) :
    M.simulate x0 us = x0 :: M.run x0 us := by
  have key : ∀ (us : List (Fin m → K)) (l : List (Fin n → K)) (x : Fin n → K),
      (us.foldl (fun (st : List (Fin n → K) × (Fin n → K)) u => let x := M.f st.2 u; (st.1 ++ [x], x)) (l, x)).1 =
        l ++ M.run x us := by
    intro us
    induction us with
    | nil => intro l x; simp [NModel.run]
    | cons u us ih =>
      intro l x
      rw [List.foldl_cons, ih, NModel.run]
      simp
  unfold NModel.simulate
  rw [key]
  rfl

theorem pyModify_ok {α : Type} {l r : List α} {k : ℕ} {g : α → α} :
    pyModify l k g = .ok r ↔ ∃ a, l[k]? = some a ∧ r = l.set k (g a) := by
  unfold pyModify
  rw [bind_ok]
  constructor
  · rintro ⟨a, h1, h2⟩
    simp only [pure, Except.pure, Except.ok.injEq] at h2
    exact ⟨a, pyGet_eq.1 h1, h2.symm⟩
  · rintro ⟨a, h1, rfl⟩
    exact ⟨a, pyGet_eq.2 h1, rfl⟩

/-- What the loop of `linearize` has done after `k` steps. -/
def LinTo (M : NModel n m K) (us : List (Fin m → K)) (xs : List (Fin n → K)) (k : ℕ) (ss L : List (LStage n m K)) : Prop :=
  L.length = ss.length ∧ ∀ (i : ℕ) (s : LStage n m K), ss[i]? = some s →
    (i < k → ∃ x u, xs[i]? = some x ∧ us[i]? = some u ∧ L[i]? = some (M.lin s x u)) ∧ (k ≤ i → L[i]? = some s)

theorem LinTo.unique {M : NModel n m K} {us : List (Fin m → K)} {xs : List (Fin n → K)} {k : ℕ} {ss L L' : List (LStage n m K)}
    (h : LinTo M us xs k ss L) (h' : LinTo M us xs k ss L') : L = L' := by
  refine list_ext_of h.1 h'.1 fun i hi => ?_
  obtain ⟨a1, a2⟩ := h.2 i _ (List.getElem?_eq_getElem hi)
  obtain ⟨b1, b2⟩ := h'.2 i _ (List.getElem?_eq_getElem hi)
  rcases lt_or_ge i k with hk | hk
  · obtain ⟨x, u, h1, h2, h3⟩ := a1 hk
    obtain ⟨x', u', h1', h2', h3'⟩ := b1 hk
    rw [h1] at h1'
    rw [h2] at h2'
    cases h1'
    cases h2'
    rw [h3, h3']
  · rw [a2 hk, b2 hk]

/-- One iteration of `linearize`. -/
def linStep (M : NModel n m K) (us : List (Fin m → K)) (xs : List (Fin n → K)) (ss : List (LStage n m K)) (k : ℕ) :
    Py (List (LStage n m K)) := do
  let x ← pyGet xs k
  let u ← pyGet us k
  let f := M.f x u
  let Fx := M.Fx x u
  let Fu := M.Fu x u
  pyModify ss k fun s => { s with F := Fx, c := f - Fx *ᵥ x - Fu *ᵥ u, L := Fu }

theorem linStep_ok {M : NModel n m K} {us : List (Fin m → K)} {xs : List (Fin n → K)} {ss r : List (LStage n m K)} {k : ℕ} :
    linStep M us xs ss k = .ok r ↔ ∃ x u s, xs[k]? = some x ∧ us[k]? = some u ∧ ss[k]? = some s ∧ r = ss.set k (M.lin s x u) := by
  unfold linStep
  rw [bind_ok]
  constructor
  · rintro ⟨x, h1, h⟩
    obtain ⟨u, h2, h⟩ := bind_ok.1 h
    obtain ⟨s, h3, h4⟩ := pyModify_ok.1 h
    exact ⟨x, u, s, pyGet_eq.1 h1, pyGet_eq.1 h2, h3, h4⟩
  · rintro ⟨x, u, s, h1, h2, h3, h4⟩
    exact ⟨x, pyGet_eq.2 h1, bind_ok.2 ⟨u, pyGet_eq.2 h2, pyModify_ok.2 ⟨s, h3, h4⟩⟩⟩

theorem linLoop_iff (M : NModel n m K) (us : List (Fin m → K)) (xs : List (Fin n → K)) (ss : List (LStage n m K)) :
    ∀ (k : ℕ) (L : List (LStage n m K)), k ≤ us.length → ((List.range k).foldlM (linStep M us xs) ss = .ok L ↔
      k ≤ ss.length ∧ k ≤ xs.length ∧ LinTo M us xs k ss L) := by
  intro k
  induction k with
  | zero =>
    intro L _
    simp only [List.range_zero, List.foldlM_nil, pure, Except.pure, Except.ok.injEq, Nat.zero_le, true_and]
    constructor
    · rintro rfl
      exact ⟨rfl, fun i s h => ⟨fun h' => absurd h' (by omega), fun _ => h⟩⟩
    · intro h
      exact LinTo.unique (M := M) (us := us) (xs := xs) (k := 0)
        ⟨rfl, fun i s h => ⟨fun h' => absurd h' (by omega), fun _ => h⟩⟩ h
  | succ k ih =>
    intro L hk
    rw [List.range_succ, List.foldlM_append, bind_ok]
    have key : ∀ {L' : List (LStage n m K)} {x : Fin n → K} {u : Fin m → K} {s : LStage n m K}, LinTo M us xs k ss L' →
        xs[k]? = some x → us[k]? = some u → L'[k]? = some s → LinTo M us xs (k + 1) ss (L'.set k (M.lin s x u)) := by
      intro L' x u s hL h1 h2 h3
      refine ⟨by simp [hL.1], fun i t ht => ?_⟩
      obtain ⟨a1, a2⟩ := hL.2 i t ht
      have hkl : k < L'.length := (List.getElem?_eq_some_iff.1 h3).1
      constructor
      · intro hi
        rcases Nat.lt_succ_iff_lt_or_eq.1 hi with hi | rfl
        · obtain ⟨x, u, b1, b2, b3⟩ := a1 hi
          exact ⟨x, u, b1, b2, by rw [List.getElem?_set_ne (by omega), b3]⟩
        · refine ⟨x, u, h1, h2, ?_⟩
          rw [List.getElem?_set_self hkl]
          have := a2 le_rfl
          rw [h3] at this
          cases this
          rfl
      · intro hi
        rw [List.getElem?_set_ne (by omega), a2 (by omega)]
    constructor
    · rintro ⟨L', h1, h2⟩
      obtain ⟨c1, c2, c3⟩ := (ih L' (by omega)).1 h1
      simp only [List.foldlM_cons, List.foldlM_nil, bind_pure] at h2
      obtain ⟨x, u, s, e1, e2, e3, rfl⟩ := linStep_ok.1 h2
      have l1 := (List.getElem?_eq_some_iff.1 e1).1
      have l3 := (List.getElem?_eq_some_iff.1 e3).1
      rw [c3.1] at l3
      exact ⟨l3, l1, key c3 e1 e2 e3⟩
    · rintro ⟨c1, c2, c3⟩
      have hu := List.getElem?_eq_getElem (l := us) (i := k) (by omega)
      have hx := List.getElem?_eq_getElem (l := xs) (i := k) (by omega)
      have hs := List.getElem?_eq_getElem (l := ss) (i := k) (by omega)
      have hp : LinTo M us xs k ss (L.set k ss[k]) := by
        refine ⟨by simp [c3.1], fun i t ht => ?_⟩
        obtain ⟨a1, a2⟩ := c3.2 i t ht
        constructor
        · intro hi
          obtain ⟨x, u, b1, b2, b3⟩ := a1 (by omega)
          exact ⟨x, u, b1, b2, by rw [List.getElem?_set_ne (by omega), b3]⟩
        · intro hi
          rcases Nat.eq_or_lt_of_le hi with rfl | hi
          · rw [List.getElem?_set_self (by rw [c3.1]; omega), ← hs, ht]
          · rw [List.getElem?_set_ne (by omega), a2 (by omega)]
      have hsk : (L.set k ss[k])[k]? = some ss[k] := List.getElem?_set_self (by rw [c3.1]; omega)
      refine ⟨_, (ih _ (by omega)).2 ⟨by omega, by omega, hp⟩, ?_⟩
      simp only [List.foldlM_cons, List.foldlM_nil, bind_pure]
      exact linStep_ok.2 ⟨_, _, _, hx, hu, hsk, c3.unique (key hp hx hu hsk)⟩

theorem linearize_iff {M : NModel n m K} {P P' : LQT n m K} {us : List (Fin m → K)} {xs : List (Fin n → K)} :
    M.linearize P us xs = .ok P' ↔ us.length ≤ P.stages.length ∧ us.length ≤ xs.length ∧
      ∃ L, LinTo M us xs us.length P.stages L ∧ P' = { P with stages := L } := by
  have h := linLoop_iff M us xs P.stages us.length
  have e : M.linearize P us xs = (do
      let ss ← (List.range us.length).foldlM (linStep M us xs) P.stages
      return { P with stages := ss }) := rfl
  rw [e, bind_ok]
  constructor
  · rintro ⟨L, h1, h2⟩
    simp only [pure, Except.pure, Except.ok.injEq] at h2
    obtain ⟨a, b, c⟩ := (h L le_rfl).1 h1
    exact ⟨a, b, L, c, h2.symm⟩
  · rintro ⟨a, b, L, c, rfl⟩
    exact ⟨L, (h L le_rfl).2 ⟨a, b, c⟩, rfl⟩

theorem linTo_exists (M : NModel n m K) {us : List (Fin m → K)} {xs : List (Fin n → K)} {ss : List (LStage n m K)}
    (h2 : us.length ≤ xs.length) : ∃ L, LinTo M us xs us.length ss L := by
  refine ⟨List.ofFn fun i : Fin ss.length =>
    if h : i.1 < us.length then M.lin ss[i.1] (xs[i.1]'(by omega)) us[i.1] else ss[i.1], by simp, ?_⟩
  intro i s hs
  obtain ⟨hi, rfl⟩ := List.getElem?_eq_some_iff.1 hs
  constructor
  · intro h
    refine ⟨xs[i]'(by omega), us[i], List.getElem?_eq_getElem _, List.getElem?_eq_getElem _, ?_⟩
    simp [hi, h]
  · intro h
    simp [hi, h]

theorem linearize_error {M : NModel n m K} {P : LQT n m K} {us : List (Fin m → K)} {xs : List (Fin n → K)}
    (h : ¬ (us.length ≤ P.stages.length ∧ us.length ≤ xs.length)) : M.linearize P us xs = .error .indexError := by
  have hget : ∀ {α : Type} (l : List α) k, (∃ a, pyGet l k = .ok a) ∨ pyGet l k = .error .indexError := by
    intro α l k
    unfold pyGet
    cases l[k]? with
    | none => exact Or.inr rfl
    | some a => exact Or.inl ⟨a, rfl⟩
  have hstep : ∀ ss k, (∃ r, linStep M us xs ss k = .ok r) ∨ linStep M us xs ss k = .error .indexError := by
    intro ss k
    unfold linStep pyModify
    rcases hget xs k with ⟨x, hx⟩ | hx
    · rw [hx]
      rcases hget us k with ⟨u, hu⟩ | hu
      · rw [hu]
        rcases hget ss k with ⟨s, hs⟩ | hs
        · rw [hs]; exact Or.inl ⟨_, rfl⟩
        · rw [hs]; exact Or.inr rfl
      · rw [hu]; exact Or.inr rfl
    · rw [hx]; exact Or.inr rfl
  have hloop : ∀ (l : List ℕ) ss, (∃ r, l.foldlM (linStep M us xs) ss = .ok r) ∨
      l.foldlM (linStep M us xs) ss = .error .indexError := by
    intro l
    induction l with
    | nil => intro ss; exact Or.inl ⟨ss, rfl⟩
    | cons k l ih =>
      intro ss
      rw [List.foldlM_cons]
      rcases hstep ss k with ⟨r, hr⟩ | hr
      · rw [hr]; exact ih r
      · rw [hr]; exact Or.inr rfl
  have e : M.linearize P us xs = (do
      let ss ← (List.range us.length).foldlM (linStep M us xs) P.stages
      return { P with stages := ss }) := rfl
  rcases hloop (List.range us.length) P.stages with ⟨r, hr⟩ | hr
  · obtain ⟨a, b, -⟩ := (linLoop_iff M us xs P.stages us.length r le_rfl).1 hr
    exact absurd ⟨a, b⟩ h
  · rw [e, hr]; rfl

/-- Linearising does not change the cost terms. -/
theorem LinTo.mem {M : NModel n m K} {us : List (Fin m → K)} {xs : List (Fin n → K)} {k : ℕ} {ss L : List (LStage n m K)}
    (h : LinTo M us xs k ss L) {t : LStage n m K} (ht : t ∈ L) :
    ∃ s ∈ ss, t = s ∨ ∃ x u, t = M.lin s x u := by
  obtain ⟨i, hi, rfl⟩ := List.getElem_of_mem ht
  have hi' : i < ss.length := h.1 ▸ hi
  obtain ⟨a1, a2⟩ := h.2 i _ (List.getElem?_eq_getElem hi')
  refine ⟨ss[i], List.getElem_mem _, ?_⟩
  rcases lt_or_ge i k with hk | hk
  · obtain ⟨x, u, -, -, h3⟩ := a1 hk
    rw [List.getElem?_eq_getElem hi] at h3
    exact Or.inr ⟨x, u, Option.some.inj h3⟩
  · have h3 := a2 hk
    rw [List.getElem?_eq_getElem hi] at h3
    exact Or.inl (Option.some.inj h3)

theorem linearize_sym {M : NModel n m K} {P P' : LQT n m K} {us : List (Fin m → K)} {xs : List (Fin n → K)} (hP : P.Sym)
    (h : M.linearize P us xs = .ok P') : P'.Sym := by
  obtain ⟨-, -, L, hL, rfl⟩ := linearize_iff.1 h
  refine ⟨fun t ht => ?_, hP.2⟩
  obtain ⟨s, hs, rfl | ⟨x, u, rfl⟩⟩ := hL.mem ht
  · exact hP.1 _ hs
  · exact hP.1 s hs

/-- Run over steps that agree with the model. -/
theorem run_eq (M : NModel n m K) : ∀ {ss : List (LStage n m K)} {us : List (Fin m → K)} (x : Fin n → K),
    us.length = ss.length →
    (∀ (i : ℕ) s y u, ss[i]? = some s → (x :: lqtRun ss x us)[i]? = some y → us[i]? = some u → s.next y u = M.f y u) →
    lqtRun ss x us = M.run x us
  | [], [], x, _, _ => rfl
  | s :: ss, u :: us, x, hl, h => by
    have h0 := h 0 s x u rfl rfl rfl
    simp only [lqtRun, NModel.run, h0]
    rw [run_eq M (M.f x u) (by simpa using hl)]
    intro i s' y u' h1 h2 h3
    refine h (i + 1) s' y u' h1 ?_ h3
    simp only [lqtRun, h0]
    exact h2

section Ordered
variable [LinearOrder K] [IsStrictOrderedRing K]

theorem linearize_convex {M : NModel n m K} {P P' : LQT n m K} {us : List (Fin m → K)} {xs : List (Fin n → K)} (hP : P.Convex)
    (h : M.linearize P us xs = .ok P') : P'.Convex := by
  obtain ⟨-, -, L, hL, rfl⟩ := linearize_iff.1 h
  refine ⟨fun t ht => ?_, hP.2⟩
  obtain ⟨s, hs, rfl | ⟨x, u, rfl⟩⟩ := hL.mem ht
  · exact hP.1 _ hs
  · have h := hP.1 s hs
    exact ⟨h.sym, h.det, h.pd, h.joint⟩

/-- Whatever the method, the result is that of the sequential passes on the linearised problem. -/
theorem iterate_seq {M : NModel n m K} {P P' : LQT n m K} {us us' : List (Fin m → K)} {xs xs' : List (Fin n → K)} {k : ℕ}
    (hP : P.Sym) (h : M.iterate P us xs k = .ok (P', us', xs')) : M.linearize P us xs = .ok P' ∧ ∃ bw x0,
      P'.seqBackwardPass = .ok bw ∧ xs[0]? = some x0 ∧ P'.seqForwardPass x0 bw.Kx_list bw.d_list = .ok (us', xs') := by
  unfold NModel.iterate at h
  obtain ⟨Q, hQ, h⟩ := bind_ok.1 h
  have hS := linearize_sym hP hQ
  split at h
  · obtain ⟨bw, h1, h⟩ := bind_ok.1 h
    obtain ⟨x0, h2, h⟩ := bind_ok.1 h
    obtain ⟨r, h3, h⟩ := bind_ok.1 h
    simp only [pure, Except.pure, Except.ok.injEq, Prod.mk.injEq] at h
    obtain ⟨rfl, rfl⟩ := h
    refine ⟨hQ, bw, x0, C21_par_eq_seq _ hS _ h1, pyGet_eq.1 h2, ?_⟩
    rw [← C22_par_eq_seq]
    · exact h3
    · intro h0
      rw [h0, (C22_empty _ _ _).1] at h3
      cases h3
  · split at h
    · obtain ⟨bw, h1, h⟩ := bind_ok.1 h
      obtain ⟨x0, h2, h⟩ := bind_ok.1 h
      obtain ⟨r, h3, h⟩ := bind_ok.1 h
      simp only [pure, Except.pure, Except.ok.injEq, Prod.mk.injEq] at h
      obtain ⟨rfl, rfl⟩ := h
      have hs := C21_par_eq_seq _ hS _ h1
      exact ⟨hQ, bw, x0, hs, pyGet_eq.1 h2, C23_fwdbwd _ hS _ hs _ _ _ h3⟩
    · obtain ⟨bw, h1, h⟩ := bind_ok.1 h
      obtain ⟨x0, h2, h⟩ := bind_ok.1 h
      obtain ⟨r, h3, h⟩ := bind_ok.1 h
      simp only [pure, Except.pure, Except.ok.injEq, Prod.mk.injEq] at h
      obtain ⟨rfl, rfl⟩ := h
      exact ⟨hQ, bw, x0, h1, pyGet_eq.1 h2, h3⟩

end Ordered

end Verif
