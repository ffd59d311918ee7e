import Verif.Spec.LQTCheck
import Verif.Proof.PyLemmas
import Verif.Proof.ScanTotal

/-! Lemmas about `LQT.checkAndExpand`. -/

namespace Verif

variable {K α : Type}

theorem isEye_iff [Zero K] [One K] {A : NArr2 K} {p x : ℕ} : A.IsEye p x ↔ A = npEye p x := by
  constructor
  · obtain ⟨a, b, f⟩ := A
    rintro ⟨h1, h2, h⟩
    simp only at h1 h2
    subst h1 h2
    simp only [npEye, NArr2.mk.injEq, heq_eq_eq, true_and]
    funext i j
    split
    · exact (h i j).1 ‹_›
    · exact (h i j).2 ‹_›
  · rintro rfl
    exact ⟨rfl, rfl, fun i j => ⟨fun h => if_pos h, fun h => if_neg h⟩⟩

theorem isZero_iff [Zero K] {A : NArr1 K} {p : ℕ} : A.IsZero p ↔ A = npZeros p := by
  constructor
  · obtain ⟨a, f⟩ := A
    rintro ⟨h1, h⟩
    simp only at h1
    subst h1
    simp only [npZeros, NArr1.mk.injEq, heq_eq_eq, true_and]
    funext i; exact h i
  · rintro rfl; exact ⟨rfl, fun _ => rfl⟩

theorem isZero2_iff [Zero K] {A : NArr2 K} {p x : ℕ} : A.IsZero p x ↔ A = npZeros2 p x := by
  constructor
  · obtain ⟨a, b, f⟩ := A
    rintro ⟨h1, h2, h⟩
    simp only at h1 h2
    subst h1 h2
    simp only [npZeros2, NArr2.mk.injEq, heq_eq_eq, true_and]
    funext i j; exact h i j
  · rintro rfl; exact ⟨rfl, rfl, fun _ _ => rfl⟩

theorem check2_ok {a : NArr2 K} {p x : ℕ} {w : Unit} : a.check p x = .ok w ↔ a.rows = p ∧ a.cols = x := by
  unfold NArr2.check
  split <;> simp_all

theorem check1_ok {a : NArr1 K} {p : ℕ} {w : Unit} : a.check p = .ok w ↔ a.len = p := by
  unfold NArr1.check
  split <;> simp_all

theorem expandLen_ok {a : ListOr α} {t : ℤ} {r : List α} : a.expandLen t = .ok r ↔ a.Expands t r := by
  cases a with
  | one a =>
    simp only [ListOr.expandLen, ListOr.Expands, Except.ok.injEq]
    rw [eq_comm, List.eq_replicate_iff]
  | list l =>
    simp only [ListOr.expandLen, ListOr.Expands]
    split <;> simp_all [eq_comm]

theorem pyGet_eq {l : List α} {k : ℕ} {a : α} : pyGet l k = .ok a ↔ l[k]? = some a := by
  unfold pyGet
  cases l[k]? <;> simp

theorem first_ok {a : ListOr α} {f : α} : a.first = .ok f ↔ a.Leads f := by
  cases a with
  | one a => simp [ListOr.first, ListOr.Leads, eq_comm]
  | list l =>
    simp only [ListOr.first, ListOr.Leads, pyGet_eq]
    cases l <;> simp

theorem optIs_iff {o : Option α} {d v : α} : OptIs o (fun a => a = d) v ↔ v = o.getD d := by
  cases o <;> simp [OptIs, eq_comm]

theorem optExpands_iff {o : Option (ListOr α)} {d : α} {t : ℤ} {r : List α} :
    OptExpands o (fun a => a = d) t r ↔ (o.getD (.one d)).Expands t r := by
  unfold OptExpands
  simp only [exists_eq_right, optIs_iff, exists_eq_left]

theorem horizon_one {a : LQTArgs K} {t : ℤ} (h : a.horizon = .ok t) : a.AllOne → a.T = some t := by
  rintro ⟨F, L, X, U, h1, h2, h3, h4⟩
  unfold LQTArgs.horizon at h
  rw [h1, h2, h3, h4] at h
  cases hT : a.T with
  | none => rw [hT] at h; cases h
  | some t' => rw [hT] at h; simpa using h

theorem horizon_of {a : LQTArgs K} {t : ℤ} {rF rL rX rU : List (NArr2 K)} (h : a.AllOne → a.T = some t)
    (hF : a.F.Expands t rF) (hL : a.L.Expands t rL) (hX : a.X.Expands t rX) (hU : a.U.Expands t rU) :
    a.horizon = .ok t := by
  unfold LQTArgs.horizon
  cases eF : a.F with
  | list l => rw [eF] at hF; simp [hF.2]
  | one F =>
    cases eL : a.L with
    | list l => rw [eL] at hL; simp [hL.2]
    | one L =>
      cases eX : a.X with
      | list l => rw [eX] at hX; simp [hX.2]
      | one X =>
        cases eU : a.U with
        | list l => rw [eU] at hU; simp [hU.2]
        | one U => rw [h ⟨F, L, X, U, eF, eL, eX, eU⟩]

theorem expands_length {a : ListOr α} {t : ℤ} {r : List α} (h : a.Expands t r) : r.length = t.toNat := by
  cases a with
  | one a => exact h.1
  | list l => obtain ⟨rfl, h⟩ := h; omega

theorem leads_head {a : ListOr α} {t : ℤ} {r : List α} {f : α} (h : a.Expands t r) (hf : a.Leads f)
    (ht : 0 < t.toNat) : r[0]? = some f := by
  have hl := expands_length h
  cases a with
  | one a =>
    cases r with
    | nil => simp at hl; omega
    | cons b r => rw [h.2 b (by simp), show f = a from hf]; rfl
  | list l => obtain ⟨rfl, h⟩ := h; obtain ⟨tl, rfl⟩ := hf; rfl

theorem forM_ok {f : α → Py Unit} {l : List α} {w : Unit} : l.forM f = .ok w ↔ ∀ a ∈ l, f a = .ok () := by
  induction l with
  | nil => simp [pure, Except.pure]
  | cons a l ih =>
    have hc : (a :: l).forM f = (f a >>= fun _ => l.forM f) := rfl
    rw [hc, bind_ok, List.forall_mem_cons]
    constructor
    · rintro ⟨_, h1, h2⟩; exact ⟨h1, ih.1 h2⟩
    · rintro ⟨h1, h2⟩; exact ⟨(), h1, ih.2 h2⟩

theorem checkStep_ok {o : RawLQT K} {k : ℕ} {w : Unit} {F0 L0 : NArr2 K} (hF : o.F[0]? = some F0)
    (hL : o.L[0]? = some L0) : o.checkStep k = .ok w ↔
    ∃ F L X U c H r Z s M p, (o.F[k]? = some F ∧ o.L[k]? = some L ∧ o.X[k]? = some X ∧ o.U[k]? = some U ∧
      o.c[k]? = some c ∧ o.H[k]? = some H ∧ o.r[k]? = some r ∧ o.Z[k]? = some Z ∧ o.s[k]? = some s ∧
      o.M[k]? = some M) ∧
    (F.rows = F0.rows ∧ F.cols = F0.rows) ∧ (L.rows = F0.rows ∧ L.cols = L0.cols) ∧ (X.rows = p ∧ X.cols = p) ∧
    (U.rows = L0.cols ∧ U.cols = L0.cols) ∧ c.len = F0.rows ∧ (H.rows = p ∧ H.cols = F0.rows) ∧ r.len = p ∧
    (Z.rows = L0.cols ∧ Z.cols = L0.cols) ∧ s.len = L0.cols ∧ (M.rows = p ∧ M.cols = L0.cols) := by
  simp only [RawLQT.checkStep, bind_ok, pyGet_eq, check2_ok, check1_ok, hF, hL, Option.some.injEq, exists_eq_left']
  constructor
  · rintro ⟨F, h1, -, h2, L, h3, -, h4, X, h5, -, h6, U, h7, -, h8, c, h9, -, h10, H, h11, -, h12, r, h13, -, h14,
      Z, h15, -, h16, s, h17, -, h18, M, h19, h20⟩
    exact ⟨F, L, X, U, c, H, r, Z, s, M, X.rows, ⟨h1, h3, h5, h7, h9, h11, h13, h15, h17, h19⟩, h2, h4,
      ⟨rfl, h6.2⟩, h8, h10, h12, h14, h16, h18, h20⟩
  · rintro ⟨F, L, X, U, c, H, r, Z, s, M, p, ⟨h1, h3, h5, h7, h9, h11, h13, h15, h17, h19⟩, h2, h4, ⟨rfl, h6⟩, h8, h10,
      h12, h14, h16, h18, h20⟩
    exact ⟨F, h1, (), h2, L, h3, (), h4, X, h5, (), ⟨trivial, h6⟩, U, h7, (), h8, c, h9, (), h10, H, h11, (), h12, r, h13,
      (), h14, Z, h15, (), h16, s, h17, (), h18, M, h19, h20⟩

theorem lqtCheck_iff [Zero K] [One K] (a : LQTArgs K) (o : RawLQT K) :
    a.checkAndExpand = .ok o ↔ LQTWellShaped a o := by
  unfold LQTWellShaped
  simp only [isEye_iff, isZero_iff, isZero2_iff, optIs_iff, optExpands_iff]
  simp only [LQTArgs.checkAndExpand, bind_ok, first_ok, expandLen_ok, check2_ok, check1_ok, pure, Except.pure,
    Except.ok.injEq, forM_ok, List.mem_range]
  constructor
  · rintro ⟨t, ht, F0, hF0, L0, hL0, X0, hX0, F, hF, L, hL, X, hX, U, hU, c, hc, H, hH, r, hr, Z, hZ, s, hs, M, hM, -,
      hXT, -, hHT, -, hrT, -, hk, rfl⟩
    refine ⟨t, F0, L0, X0, horizon_one ht, hF0, hL0, hX0, hF, hL, hX, hU, rfl, hc, hH, hr, rfl, rfl, hZ, hs, hM,
      ⟨hXT.2, hHT.1, hHT.2, hrT⟩, fun k hkt => ?_⟩
    have h0 : 0 < t.toNat := by omega
    exact (checkStep_ok (leads_head hF hF0 h0) (leads_head hL hL0 h0)).1 (hk k hkt)
  · obtain ⟨F, L, X, U, XT, c, H, r, HT, rT, Z, s, M⟩ := o
    rintro ⟨t, F0, L0, X0, ht, hF0, hL0, hX0, hF, hL, hX, hU, hXT, hc, hH, hr, hHT, hrT, hZ, hs, hM, ⟨h1, h2, h3, h4⟩, hk⟩
    simp only at *
    subst hXT hHT hrT
    refine ⟨t, horizon_of ht hF hL hX hU, F0, hF0, L0, hL0, X0, hX0, F, hF, L, hL, X, hX, U, hU, c, hc, H, hH, r, hr, Z,
      hZ, s, hs, M, hM, (), ⟨trivial, h1⟩, (), ⟨h2, h3⟩, (), h4, (), fun k hkt => ?_, rfl⟩
    have h0 : 0 < t.toNat := by omega
    exact (checkStep_ok (leads_head hF hF0 h0) (leads_head hL hL0 h0)).2 (hk k hkt)

theorem ofMat_of {A : NArr2 K} {p x : ℕ} (h : A.rows = p ∧ A.cols = x) : ∃ B : Matrix (Fin p) (Fin x) K, A = .ofMat B := by
  obtain ⟨a, b, f⟩ := A
  obtain ⟨h1, h2⟩ := h
  simp only at h1 h2
  subst h1 h2
  exact ⟨f, rfl⟩

theorem ofVec_of {A : NArr1 K} {p : ℕ} (h : A.len = p) : ∃ v : Fin p → K, A = .ofVec v := by
  obtain ⟨a, f⟩ := A
  simp only at h
  subst h
  exact ⟨f, rfl⟩

theorem list_split {l : List α} {N : ℕ} (h : l.length = N + 1) : ∃ a t, l = a :: t ∧ t.length = N := by
  cases l with
  | nil => simp at h
  | cons a t => exact ⟨a, t, rfl, by simpa using h⟩

theorem stages_of {x u : ℕ} (N : ℕ) : ∀ {F L X U H Z M : List (NArr2 K)} {c r s : List (NArr1 K)}, F.length = N →
    L.length = N → X.length = N → U.length = N → c.length = N → H.length = N → r.length = N → Z.length = N →
    s.length = N → M.length = N →
    (∀ k < N, ∃ F' L' X' U' c' H' r' Z' s' M' p, (F[k]? = some F' ∧ L[k]? = some L' ∧ X[k]? = some X' ∧
      U[k]? = some U' ∧ c[k]? = some c' ∧ H[k]? = some H' ∧ r[k]? = some r' ∧ Z[k]? = some Z' ∧ s[k]? = some s' ∧
      M[k]? = some M') ∧
    (F'.rows = x ∧ F'.cols = x) ∧ (L'.rows = x ∧ L'.cols = u) ∧ (X'.rows = p ∧ X'.cols = p) ∧
    (U'.rows = u ∧ U'.cols = u) ∧ c'.len = x ∧ (H'.rows = p ∧ H'.cols = x) ∧ r'.len = p ∧
    (Z'.rows = u ∧ Z'.cols = u) ∧ s'.len = u ∧ (M'.rows = p ∧ M'.cols = u)) →
    ∃ ss : List (LStage x u K), F = ss.map (fun s => .ofMat s.F) ∧ L = ss.map (fun s => .ofMat s.L) ∧
      X = ss.map (fun s => .ofMat s.X) ∧ U = ss.map (fun s => .ofMat s.U) ∧ c = ss.map (fun s => .ofVec s.c) ∧
      H = ss.map (fun s => .ofMat s.H) ∧ r = ss.map (fun s => .ofVec s.r) ∧ Z = ss.map (fun s => .ofMat s.Z) ∧
      s = ss.map (fun s => .ofVec s.s) ∧ M = ss.map (fun s => .ofMat s.M) := by
  induction N with
  | zero =>
    intro F L X U H Z M c r s h1 h2 h3 h4 h5 h6 h7 h8 h9 h10 _
    simp only [List.length_eq_zero_iff] at *
    subst h1 h2 h3 h4 h5 h6 h7 h8 h9 h10
    exact ⟨[], by simp⟩
  | succ N ih =>
    intro F L X U H Z M c r s h1 h2 h3 h4 h5 h6 h7 h8 h9 h10 hk
    obtain ⟨F0, F, rfl, l1⟩ := list_split h1
    obtain ⟨L0, L, rfl, l2⟩ := list_split h2
    obtain ⟨X0, X, rfl, l3⟩ := list_split h3
    obtain ⟨U0, U, rfl, l4⟩ := list_split h4
    obtain ⟨c0, c, rfl, l5⟩ := list_split h5
    obtain ⟨H0, H, rfl, l6⟩ := list_split h6
    obtain ⟨r0, r, rfl, l7⟩ := list_split h7
    obtain ⟨Z0, Z, rfl, l8⟩ := list_split h8
    obtain ⟨s0, s, rfl, l9⟩ := list_split h9
    obtain ⟨M0, M, rfl, l10⟩ := list_split h10
    obtain ⟨ss, rfl, rfl, rfl, rfl, rfl, rfl, rfl, rfl, rfl, rfl⟩ := ih l1 l2 l3 l4 l5 l6 l7 l8 l9 l10 (fun k hlt => by
      obtain ⟨F', L', X', U', c', H', r', Z', s', M', p, ⟨e1, e2, e3, e4, e5, e6, e7, e8, e9, e10⟩, g⟩ :=
        hk (k + 1) (Nat.succ_lt_succ hlt)
      rw [List.getElem?_cons_succ] at e1 e2 e3 e4 e5 e6 e7 e8 e9 e10
      exact ⟨F', L', X', U', c', H', r', Z', s', M', p, ⟨e1, e2, e3, e4, e5, e6, e7, e8, e9, e10⟩, g⟩)
    obtain ⟨F', L', X', U', c', H', r', Z', s', M', p, ⟨e1, e2, e3, e4, e5, e6, e7, e8, e9, e10⟩, g1, g2, g3, g4, g5, g6,
      g7, g8, g9, g10⟩ := hk 0 (Nat.succ_pos N)
    simp only [List.getElem?_cons_zero, Option.some.injEq] at e1 e2 e3 e4 e5 e6 e7 e8 e9 e10
    subst e1 e2 e3 e4 e5 e6 e7 e8 e9 e10
    obtain ⟨F', rfl⟩ := ofMat_of g1
    obtain ⟨L', rfl⟩ := ofMat_of g2
    obtain ⟨X', rfl⟩ := ofMat_of g3
    obtain ⟨U', rfl⟩ := ofMat_of g4
    obtain ⟨c', rfl⟩ := ofVec_of g5
    obtain ⟨H', rfl⟩ := ofMat_of g6
    obtain ⟨r', rfl⟩ := ofVec_of g7
    obtain ⟨Z', rfl⟩ := ofMat_of g8
    obtain ⟨s', rfl⟩ := ofVec_of g9
    obtain ⟨M', rfl⟩ := ofMat_of g10
    exact ⟨⟨p, F', L', X', U', c', H', r', Z', s', M'⟩ :: ss, by simp⟩

theorem wellShaped_object [Zero K] [One K] {a : LQTArgs K} {o : RawLQT K} (h : LQTWellShaped a o) :
    ∃ (n m : ℕ) (P : LQT n m K), o = P.raw := by
  unfold LQTWellShaped at h
  simp only [isEye_iff, isZero_iff, isZero2_iff, optIs_iff, optExpands_iff] at h
  obtain ⟨t, F0, L0, X0, -, -, -, -, hF, hL, hX, hU, -, hc, hH, hr, -, -, hZ, hs, hM, ⟨g1, g2, g3, g4⟩, hk⟩ := h
  obtain ⟨ss, h1, h2, h3, h4, h5, h6, h7, h8, h9, h10⟩ := stages_of t.toNat (expands_length hF) (expands_length hL)
    (expands_length hX) (expands_length hU) (expands_length hc) (expands_length hH) (expands_length hr)
    (expands_length hZ) (expands_length hs) (expands_length hM) hk
  obtain ⟨XT, e1⟩ := ofMat_of ⟨rfl, g1⟩
  obtain ⟨HT, e2⟩ := ofMat_of ⟨g2, g3⟩
  obtain ⟨rT, e3⟩ := ofVec_of g4
  refine ⟨_, _, ⟨ss, _, XT, HT, rT⟩, ?_⟩
  obtain ⟨F, L, X, U, XT, c, H, r, HT, rT, Z, s, M⟩ := o
  simp only [LQT.raw, RawLQT.mk.injEq]
  exact ⟨h1, h2, h3, h4, e1, h5, h6, h7, e2, e3, h8, h9, h10⟩

theorem raw_wellShaped [Zero K] [One K] {n m : ℕ} (P : LQT n m K) (h : P.stages ≠ []) :
    LQTWellShaped P.raw.args P.raw := by
  unfold LQTWellShaped
  simp only [isEye_iff, isZero_iff, isZero2_iff, optIs_iff, optExpands_iff]
  cases hP : P.stages with
  | nil => exact absurd hP h
  | cons s0 ss =>
    have hl : ∀ {β : Type} (f : LStage n m K → β), (ListOr.list (P.stages.map f)).Expands (P.stages.length : ℤ)
        (P.stages.map f) := fun f => ⟨rfl, by simp⟩
    have hd : ∀ {β : Type} (f : LStage n m K → β), (ListOr.list (P.stages.map f)).Leads (f s0) := fun f =>
      ⟨ss.map f, by rw [hP]; rfl⟩
    refine ⟨P.stages.length, .ofMat s0.F, .ofMat s0.L, .ofMat s0.X, ?_, hd _, hd _, hd _, hl _, hl _, hl _, hl _, rfl,
      hl _, hl _, hl _, rfl, rfl, hl _, hl _, hl _, ⟨rfl, rfl, rfl, rfl⟩, ?_⟩
    · rintro ⟨F, -, -, -, h1, -⟩
      simp [RawLQT.args] at h1
    · intro k hk
      have hk : k < P.stages.length := by simpa using hk
      have hs : P.stages[k]? = some P.stages[k] := List.getElem?_eq_getElem hk
      have hm : ∀ {β : Type} (f : LStage n m K → β), (P.stages.map f)[k]? = some (f P.stages[k]) := by
        intro β f; rw [List.getElem?_map, hs]; rfl
      exact ⟨.ofMat P.stages[k].F, .ofMat P.stages[k].L, .ofMat P.stages[k].X, .ofMat P.stages[k].U, .ofVec P.stages[k].c,
        .ofMat P.stages[k].H, .ofVec P.stages[k].r, .ofMat P.stages[k].Z, .ofVec P.stages[k].s, .ofMat P.stages[k].M,
        P.stages[k].p, ⟨hm _, hm _, hm _, hm _, hm _, hm _, hm _, hm _, hm _, hm _⟩, ⟨rfl, rfl⟩,
        ⟨rfl, rfl⟩, ⟨rfl, rfl⟩, ⟨rfl, rfl⟩, rfl, ⟨rfl, rfl⟩, rfl, ⟨rfl, rfl⟩, rfl, ⟨rfl, rfl⟩⟩

/-! ### Errors -/

/-- The only possible exception is `ValueError`. -/
def OnlyValueError (x : Py α) : Prop := ∀ e, x = .error e → e = .valueError

theorem only_bind {β : Type} {x : Py α} {f : α → Py β} (h1 : OnlyValueError x)
    (h2 : ∀ a, x = .ok a → OnlyValueError (f a)) : OnlyValueError (x >>= f) := by
  intro e h
  cases hx : x with
  | error e' =>
    rw [hx] at h
    have : e' = e := by simpa [bind, Except.bind] using h
    exact this ▸ h1 e' hx
  | ok a => rw [hx] at h; exact h2 a hx e h

theorem only_ok {a : α} : OnlyValueError (.ok a) := by intro e h; cases h

theorem only_check2 {a : NArr2 K} {p x : ℕ} : OnlyValueError (a.check p x) := by
  intro e h
  unfold NArr2.check at h
  split at h <;> cases h
  rfl

theorem only_check1 {a : NArr1 K} {p : ℕ} : OnlyValueError (a.check p) := by
  intro e h
  unfold NArr1.check at h
  split at h <;> cases h
  rfl

theorem only_expandLen {a : ListOr α} {t : ℤ} : OnlyValueError (a.expandLen t) := by
  intro e h
  unfold ListOr.expandLen at h
  split at h
  · cases h
  · split at h <;> cases h
    rfl

theorem only_pyGet {l : List α} {k : ℕ} (h : k < l.length) : OnlyValueError (pyGet l k) := by
  rw [pyGet_lt h]; exact only_ok

theorem only_forM {f : α → Py Unit} {l : List α} (h : ∀ a ∈ l, OnlyValueError (f a)) : OnlyValueError (l.forM f) := by
  induction l with
  | nil => exact only_ok
  | cons a l ih =>
    exact only_bind (h a (by simp)) fun _ _ => ih fun b hb => h b (by simp [hb])

theorem only_horizon {a : LQTArgs K} : OnlyValueError a.horizon := by
  intro e h
  unfold LQTArgs.horizon at h
  split at h <;> cases h
  rfl

theorem only_checkStep {o : RawLQT K} {k N : ℕ} (hk : k < N) (h1 : o.F.length = N) (h2 : o.L.length = N)
    (h3 : o.X.length = N) (h4 : o.U.length = N) (h5 : o.c.length = N) (h6 : o.H.length = N) (h7 : o.r.length = N)
    (h8 : o.Z.length = N) (h9 : o.s.length = N) (h10 : o.M.length = N) : OnlyValueError (o.checkStep k) := by
  unfold RawLQT.checkStep
  refine only_bind (only_pyGet (by omega)) fun _ _ => ?_
  refine only_bind (only_pyGet (by omega)) fun _ _ => ?_
  refine only_bind (only_pyGet (by omega)) fun _ _ => only_bind only_check2 fun _ _ => ?_
  refine only_bind (only_pyGet (by omega)) fun _ _ => only_bind only_check2 fun _ _ => ?_
  refine only_bind (only_pyGet (by omega)) fun _ _ => only_bind only_check2 fun _ _ => ?_
  refine only_bind (only_pyGet (by omega)) fun _ _ => only_bind only_check2 fun _ _ => ?_
  refine only_bind (only_pyGet (by omega)) fun _ _ => only_bind only_check1 fun _ _ => ?_
  refine only_bind (only_pyGet (by omega)) fun _ _ => only_bind only_check2 fun _ _ => ?_
  refine only_bind (only_pyGet (by omega)) fun _ _ => only_bind only_check1 fun _ _ => ?_
  refine only_bind (only_pyGet (by omega)) fun _ _ => only_bind only_check2 fun _ _ => ?_
  refine only_bind (only_pyGet (by omega)) fun _ _ => only_bind only_check1 fun _ _ => ?_
  exact only_bind (only_pyGet (by omega)) fun _ _ => only_check2

theorem first_cases {a : ListOr α} : (a = .list [] ∧ a.first = .error .indexError) ∨ ∃ f, a ≠ .list [] ∧ a.first = .ok f := by
  cases a with
  | one a => exact .inr ⟨a, by simp, rfl⟩
  | list l =>
    cases l with
    | nil => exact .inl ⟨rfl, rfl⟩
    | cons f l => exact .inr ⟨f, by simp, rfl⟩

theorem horizon_list {a : LQTArgs K} (h : ¬ a.AllOne) : ∃ t, a.horizon = .ok t := by
  unfold LQTArgs.horizon
  cases eF : a.F with
  | list l => exact ⟨_, rfl⟩
  | one F =>
    cases eL : a.L with
    | list l => exact ⟨_, rfl⟩
    | one L =>
      cases eX : a.X with
      | list l => exact ⟨_, rfl⟩
      | one X =>
        cases eU : a.U with
        | list l => exact ⟨_, rfl⟩
        | one U => exact absurd ⟨F, L, X, U, eF, eL, eX, eU⟩ h

theorem lqtCheck_errors [Zero K] [One K] (a : LQTArgs K) :
    (a.F ≠ .list [] → a.L ≠ .list [] → a.X ≠ .list [] → OnlyValueError a.checkAndExpand) ∧
    (a.F = .list [] ∨ a.L = .list [] ∨ a.X = .list [] → a.checkAndExpand = .error .indexError) := by
  constructor
  · intro h1 h2 h3
    unfold LQTArgs.checkAndExpand
    refine only_bind only_horizon fun t _ => ?_
    obtain ⟨h, -⟩ | ⟨F0, -, e⟩ := first_cases (a := a.F)
    · exact absurd h h1
    rw [e]
    refine only_bind only_ok fun _ _ => ?_
    obtain ⟨h, -⟩ | ⟨L0, -, e⟩ := first_cases (a := a.L)
    · exact absurd h h2
    rw [e]
    refine only_bind only_ok fun _ _ => ?_
    obtain ⟨h, -⟩ | ⟨X0, -, e⟩ := first_cases (a := a.X)
    · exact absurd h h3
    rw [e]
    refine only_bind only_ok fun _ _ => ?_
    refine only_bind only_expandLen fun F e1 => ?_
    refine only_bind only_expandLen fun L e2 => ?_
    refine only_bind only_expandLen fun X e3 => ?_
    refine only_bind only_expandLen fun U e4 => ?_
    refine only_bind only_expandLen fun c e5 => ?_
    refine only_bind only_expandLen fun H e6 => ?_
    refine only_bind only_expandLen fun r e7 => ?_
    refine only_bind only_expandLen fun Z e8 => ?_
    refine only_bind only_expandLen fun s e9 => ?_
    refine only_bind only_expandLen fun M e10 => ?_
    rw [expandLen_ok] at e1 e2 e3 e4 e5 e6 e7 e8 e9 e10
    refine only_bind only_check2 fun _ _ => only_bind only_check2 fun _ _ => only_bind only_check1 fun _ _ => ?_
    refine only_bind (only_forM fun k hk => ?_) fun _ _ => only_ok
    exact only_checkStep (List.mem_range.1 hk) (expands_length e1) (expands_length e2) (expands_length e3)
      (expands_length e4) (expands_length e5) (expands_length e6) (expands_length e7) (expands_length e8)
      (expands_length e9) (expands_length e10)
  · intro h
    have hT : ¬ a.AllOne := by
      rintro ⟨F, L, X, U, h1, h2, h3, h4⟩
      rw [h1, h2, h3] at h
      simp at h
    obtain ⟨t, ht⟩ := horizon_list hT
    unfold LQTArgs.checkAndExpand
    rw [ht]
    show (a.F.first >>= _) = _
    obtain ⟨-, e⟩ | ⟨F0, hF, e⟩ := first_cases (a := a.F)
    · rw [e]; rfl
    rw [e]
    show (a.L.first >>= _) = _
    obtain ⟨-, e⟩ | ⟨L0, hL, e⟩ := first_cases (a := a.L)
    · rw [e]; rfl
    rw [e]
    show (a.X.first >>= _) = _
    obtain ⟨-, e⟩ | ⟨X0, hX, e⟩ := first_cases (a := a.X)
    · rw [e]; rfl
    simp [hF, hL, hX] at h

end Verif
