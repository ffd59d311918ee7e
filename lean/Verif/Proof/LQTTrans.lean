import Verif.Proof.LQTFwd

/-! The transformed backward pass. -/

namespace Verif

open Matrix

variable {n m : ℕ} {K : Type} [Field K]

section Ordered
variable [LinearOrder K] [IsStrictOrderedRing K]

omit [LinearOrder K] [IsStrictOrderedRing K] in
/-- The transformed step. -/
def LStage.tr (s : LStage n m K) : LStage n m K :=
  { p := s.p, F := s.F - s.L * minv s.U * s.Mᵀ * s.H, L := s.L, X := s.X - s.M * minv s.U * s.Mᵀ, U := s.U,
    c := s.c + (s.L * minv s.U * s.Mᵀ) *ᵥ s.r + s.L *ᵥ s.s, H := s.H, r := s.r, Z := 1, s := 0, M := 0 }

omit [IsStrictOrderedRing K] in
theorem transformed_ok {s t : LStage n m K} : s.transformed = .ok t ↔ s.U.det ≠ 0 ∧
    t = s.tr := by
  unfold LStage.transformed inv
  rw [bind_ok]
  constructor
  · rintro ⟨f, hf, h⟩
    obtain ⟨h1, rfl⟩ := luFactor_ok.1 hf
    simp only [pure, Except.pure, Except.ok.injEq] at h
    exact ⟨h1, h.symm⟩
  · rintro ⟨h1, rfl⟩
    exact ⟨minv s.U, luFactor_ok.2 ⟨h1, rfl⟩, rfl⟩

theorem tr_step {p : ℕ} {F : Matrix (Fin n) (Fin n) K} {L : Matrix (Fin n) (Fin m) K} {X : Matrix (Fin p) (Fin p) K}
    {U : Matrix (Fin m) (Fin m) K} {c : Fin n → K} {H : Matrix (Fin p) (Fin n) K} {r : Fin p → K} {sv : Fin m → K}
    {M : Matrix (Fin p) (Fin m) K} (hs1 : Xᵀ = X) (hs2 : Uᵀ = U) (hU : U.det ≠ 0)
    {S : Matrix (Fin n) (Fin n) K} (hS : Sᵀ = S) {v : Fin n → K} {Kx : Matrix (Fin m) (Fin n) K} {d : Fin m → K} :
    ((⟨p, F - L * minv U * Mᵀ * H, L, X - M * minv U * Mᵀ, U, c + (L * minv U * Mᵀ) *ᵥ r + L *ᵥ sv, H, r, 1, 0, 0⟩ : LStage n m K).gains S v = .ok (Kx, d) ↔
      (⟨p, F, L, X, U, c, H, r, 1, sv, M⟩ : LStage n m K).gains S v = .ok (Kx + minv U * Mᵀ * H, d + (minv U * Mᵀ) *ᵥ r + sv)) ∧
    ((⟨p, F - L * minv U * Mᵀ * H, L, X - M * minv U * Mᵀ, U, c + (L * minv U * Mᵀ) *ᵥ r + L *ᵥ sv, H, r, 1, 0, 0⟩ : LStage n m K).gains S v = .ok (Kx, d) →
      (⟨p, F - L * minv U * Mᵀ * H, L, X - M * minv U * Mᵀ, U, c + (L * minv U * Mᵀ) *ᵥ r + L *ᵥ sv, H, r, 1, 0, 0⟩ : LStage n m K).riccati Kx S v =
        (⟨p, F, L, X, U, c, H, r, 1, sv, M⟩ : LStage n m K).riccati (Kx + minv U * Mᵀ * H) S v) := by
  have hs : (⟨p, F, L, X, U, c, H, r, 1, sv, M⟩ : LStage n m K).Sym := ⟨hs1, hs2⟩
  have hUI := mul_minv hU
  have hUIt : (minv U)ᵀ = minv U := by rw [minv_transpose, hs2]
  have hts : (⟨p, F - L * minv U * Mᵀ * H, L, X - M * minv U * Mᵀ, U, c + (L * minv U * Mᵀ) *ᵥ r + L *ᵥ sv, H, r, 1, 0, 0⟩ : LStage n m K).Sym := by
    refine ⟨?_, hs2⟩
    simp only [transpose_sub, transpose_mul, transpose_transpose, hs1, hUIt, Matrix.mul_assoc]
  have hg : (⟨p, F - L * minv U * Mᵀ * H, L, X - M * minv U * Mᵀ, U, c + (L * minv U * Mᵀ) *ᵥ r + L *ᵥ sv, H, r, 1, 0, 0⟩ : LStage n m K).gains S v = .ok (Kx, d) ↔
      (⟨p, F, L, X, U, c, H, r, 1, sv, M⟩ : LStage n m K).gains S v = .ok (Kx + minv U * Mᵀ * H, d + (minv U * Mᵀ) *ᵥ r + sv) := by
    rw [gains_ok hts hS, gains_ok hs hS]
    simp only [LStage.hess, transpose_one, Matrix.one_mul, Matrix.mul_one, transpose_zero, Matrix.zero_mul,
      Matrix.mul_zero, mulVec_zero, zero_mulVec, zero_add, zero_sub]
    have hUv : ∀ y, U *ᵥ (minv U *ᵥ y) = y := fun y => by rw [mulVec_mulVec, hUI, one_mulVec]
    refine and_congr_right fun _ => and_congr ?_ ?_
    · have e : (U + Lᵀ * S * L) * (Kx + minv U * Mᵀ * H) =
          (U + Lᵀ * S * L) * Kx + Lᵀ * S * (L * minv U * Mᵀ * H) + Mᵀ * H := by
        rw [Matrix.mul_add, Matrix.add_mul U _ (minv U * Mᵀ * H)]
        have : U * (minv U * Mᵀ * H) = Mᵀ * H := by
          rw [← Matrix.mul_assoc, ← Matrix.mul_assoc, hUI, Matrix.one_mul]
        rw [this]
        simp only [Matrix.mul_assoc]
        abel
      rw [e, Matrix.mul_sub]
      constructor
      · intro h; rw [h]; abel
      · intro h
        rw [eq_sub_iff_add_eq]
        have h' := congrArg (fun z => z - Mᵀ * H) h
        simp only [add_sub_cancel_right, add_sub_cancel_left] at h'
        exact h'
    · have e : (U + Lᵀ * S * L) *ᵥ (d + (minv U * Mᵀ) *ᵥ r + sv) =
          (U + Lᵀ * S * L) *ᵥ d + (Lᵀ * S) *ᵥ ((L * minv U * Mᵀ) *ᵥ r + L *ᵥ sv) +
            (Mᵀ *ᵥ r + U *ᵥ sv) := by
        simp only [mulVec_add, add_mulVec, ← mulVec_mulVec, hUv]
        abel
      rw [e]
      have e2 : (Lᵀ * S) *ᵥ (c + (L * minv U * Mᵀ) *ᵥ r + L *ᵥ sv) =
          (Lᵀ * S) *ᵥ c + (Lᵀ * S) *ᵥ ((L * minv U * Mᵀ) *ᵥ r + L *ᵥ sv) := by
        simp only [mulVec_add]; abel
      rw [e2]
      constructor
      · intro h; rw [h]; abel
      · intro h
        have h' := congrArg (fun z => z - (Lᵀ * S) *ᵥ ((L * minv U * Mᵀ) *ᵥ r + L *ᵥ sv) -
          (Mᵀ *ᵥ r + U *ᵥ sv)) h
        have l : ∀ a b c : Fin m → K, a + b + c - b - c = a := by intro a b c; abel
        rw [l] at h'
        rw [h']
        abel
  refine ⟨hg, fun h => ?_⟩
  have h' := hg.1 h
  -- the same costate at every state
  have key : ∀ x, ((⟨p, F - L * minv U * Mᵀ * H, L, X - M * minv U * Mᵀ, U, c + (L * minv U * Mᵀ) *ᵥ r + L *ᵥ sv, H, r, 1, 0, 0⟩ : LStage n m K).riccati Kx S v).1 *ᵥ x - ((⟨p, F - L * minv U * Mᵀ * H, L, X - M * minv U * Mᵀ, U, c + (L * minv U * Mᵀ) *ᵥ r + L *ᵥ sv, H, r, 1, 0, 0⟩ : LStage n m K).riccati Kx S v).2 =
      ((⟨p, F, L, X, U, c, H, r, 1, sv, M⟩ : LStage n m K).riccati (Kx + minv U * Mᵀ * H) S v).1 *ᵥ x - ((⟨p, F, L, X, U, c, H, r, 1, sv, M⟩ : LStage n m K).riccati (Kx + minv U * Mᵀ * H) S v).2 := by
    intro x
    rw [← gx_eq hts hS h, ← gx_eq hs hS h']
    set w := -Kx *ᵥ x + d with hw
    set u := -(Kx + minv U * Mᵀ * H) *ᵥ x + (d + (minv U * Mᵀ) *ᵥ r + sv) with hu
    have huw : u = w - minv U *ᵥ (Mᵀ *ᵥ (H *ᵥ x - r)) + sv := by
      rw [hu, hw]
      simp only [neg_mulVec, add_mulVec, mulVec_sub, ← mulVec_mulVec]
      abel
    have hnext : (⟨p, F - L * minv U * Mᵀ * H, L, X - M * minv U * Mᵀ, U, c + (L * minv U * Mᵀ) *ᵥ r + L *ᵥ sv, H, r, 1, 0, 0⟩ : LStage n m K).next x w = (⟨p, F, L, X, U, c, H, r, 1, sv, M⟩ : LStage n m K).next x u := by
      rw [huw]
      simp only [LStage.next, mulVec_add, mulVec_sub, sub_mulVec, ← mulVec_mulVec]
      abel
    rw [hnext]
    -- stationarity of `s`
    have hst := (gu_zero_iff hs hS h' x u).2 rfl
    set l := S *ᵥ (⟨p, F, L, X, U, c, H, r, 1, sv, M⟩ : LStage n m K).next x u - v with hl
    have hUv : ∀ y, U *ᵥ (minv U *ᵥ y) = y := fun y => by rw [mulVec_mulVec, hUI, one_mulVec]
    have hUv' : ∀ y, minv U *ᵥ (U *ᵥ y) = y := fun y => by rw [mulVec_mulVec, minv_mul hU, one_mulVec]
    have hw' : U *ᵥ w + Lᵀ *ᵥ l = 0 := by
      rw [← hst, huw]
      simp only [LStage.gu, transpose_one, one_mulVec]
      have : w - minv U *ᵥ (Mᵀ *ᵥ (H *ᵥ x - r)) + sv - sv = w - minv U *ᵥ (Mᵀ *ᵥ (H *ᵥ x - r)) := by
        abel
      rw [this, mulVec_sub U, hUv]
      abel
    have hL : Lᵀ *ᵥ l = -(U *ᵥ w) := eq_neg_of_add_eq_zero_right hw'
    have hFt : (F - L * minv U * Mᵀ * H)ᵀ *ᵥ l =
        Fᵀ *ᵥ l + Hᵀ *ᵥ (M *ᵥ w) := by
      simp only [transpose_sub, transpose_mul, transpose_transpose, hUIt, sub_mulVec, ← mulVec_mulVec]
      rw [hL, mulVec_neg, hUv', mulVec_neg, mulVec_neg, sub_neg_eq_add]
    simp only [LStage.gx]
    rw [hFt, huw]
    simp only [zero_mulVec, one_mulVec, add_zero]
    have : w - minv U *ᵥ (Mᵀ *ᵥ (H *ᵥ x - r)) + sv - sv = w - minv U *ᵥ (Mᵀ *ᵥ (H *ᵥ x - r)) := by
      abel
    rw [this]
    simp only [sub_mulVec, mulVec_sub, mulVec_add, ← mulVec_mulVec]
    abel
  have h2 : ((⟨p, F - L * minv U * Mᵀ * H, L, X - M * minv U * Mᵀ, U, c + (L * minv U * Mᵀ) *ᵥ r + L *ᵥ sv, H, r, 1, 0, 0⟩ : LStage n m K).riccati Kx S v).2 = ((⟨p, F, L, X, U, c, H, r, 1, sv, M⟩ : LStage n m K).riccati (Kx + minv U * Mᵀ * H) S v).2 := by
    have := key 0
    simpa using this
  refine Prod.ext (mat_ext_mulVec fun x => ?_) h2
  have := key x
  rw [h2] at this
  exact sub_left_inj.1 this

/-- One step: gains and Riccati update of the transformed step. -/
theorem transformed_step {s t : LStage n m K} (hs : s.Sym) (hZ : s.Z = 1) (ht : s.transformed = .ok t)
    {S : Matrix (Fin n) (Fin n) K} (hS : Sᵀ = S) {v : Fin n → K} {Kx : Matrix (Fin m) (Fin n) K} {d : Fin m → K} :
    (t.gains S v = .ok (Kx, d) ↔
      s.gains S v = .ok (Kx + minv s.U * s.Mᵀ * s.H, d + (minv s.U * s.Mᵀ) *ᵥ s.r + s.s)) ∧
    (t.gains S v = .ok (Kx, d) → t.riccati Kx S v = s.riccati (Kx + minv s.U * s.Mᵀ * s.H) S v) := by
  obtain ⟨p, F, L, X, U, c, H, r, Z, sv, M⟩ := s
  simp only at hZ
  subst hZ
  obtain ⟨hU, rfl⟩ := transformed_ok.1 ht
  exact tr_step hs.1 hs.2 hU hS

/-- Gains of the original problem from those of the transformed one. -/
def backGains : List (LStage n m K) → List (Matrix (Fin m) (Fin n) K) → List (Fin m → K) →
    List (Matrix (Fin m) (Fin n) K × (Fin m → K))
  | s :: ss, Kx :: Ks, d :: ds =>
    (Kx + minv s.U * s.Mᵀ * s.H, d + (minv s.U * s.Mᵀ) *ᵥ s.r + s.s) :: backGains ss Ks ds
  | _, _, _ => []

theorem transformed_bw {S0 : Matrix (Fin n) (Fin n) K} {v0 : Fin n → K} (h0 : S0ᵀ = S0) {ss ts : List (LStage n m K)}
    (hs : ∀ s ∈ ss, s.Sym) (hZ : ∀ s ∈ ss, s.Z = 1)
    (ht : List.Forall₂ (fun s t => LStage.transformed s = .ok t) ss ts) {S : Matrix (Fin n) (Fin n) K}
    {v : Fin n → K} : (∀ {r : BwResult n m K}, BwOk S0 v0 ts S v r → BwOk S0 v0 ss S v
      ⟨(backGains ss r.Kx_list r.d_list).map Prod.fst, (backGains ss r.Kx_list r.d_list).map Prod.snd,
        r.S_list, r.v_list⟩) ∧ (∀ {r : BwResult n m K}, BwOk S0 v0 ss S v r → ∃ r', BwOk S0 v0 ts S v r') := by
  induction ht generalizing S v with
  | nil =>
    constructor
    · intro r h; cases h; exact BwOk.nil
    · intro r h; exact ⟨r, h⟩
  | @cons s t ss ts h1 h2 ih =>
    have hs' : ∀ s ∈ ss, s.Sym := fun s h => hs s (by simp [h])
    have hZ' : ∀ s ∈ ss, s.Z = 1 := fun s h => hZ s (by simp [h])
    constructor
    · intro r h
      cases h with
      | @cons _ _ S v r Kx d h hg =>
        have hb := (ih hs' hZ').1 h
        have hS := hb.symm h0 hs'
        obtain ⟨a, b⟩ := transformed_step (hs s (by simp)) (hZ s (by simp)) h1 hS (v := v) (Kx := Kx) (d := d)
        have := BwOk.cons hb (a.1 hg)
        rw [b hg]
        exact this
    · intro r h
      cases h with
      | @cons _ _ S v r Kx d h hg =>
        obtain ⟨r', hb⟩ := (ih hs' hZ').2 h
        have hS := h.symm h0 hs'
        obtain ⟨a, b⟩ := transformed_step (hs s (by simp)) (hZ s (by simp)) h1 hS (v := v)
          (Kx := Kx - minv s.U * s.Mᵀ * s.H) (d := d - (minv s.U * s.Mᵀ) *ᵥ s.r - s.s)
        have e1 : Kx - minv s.U * s.Mᵀ * s.H + minv s.U * s.Mᵀ * s.H = Kx := by abel
        have e2 : d - (minv s.U * s.Mᵀ) *ᵥ s.r - s.s + (minv s.U * s.Mᵀ) *ᵥ s.r + s.s = d := by abel
        rw [e1, e2] at a
        rw [e1] at b
        have hg' := a.2 hg
        have := BwOk.cons hb hg'
        rw [b hg'] at this
        exact ⟨_, this⟩

omit [IsStrictOrderedRing K] in
theorem transGains_ok {ss : List (LStage n m K)} {Ks : List (Matrix (Fin m) (Fin n) K)} {ds : List (Fin m → K)}
    (hU : ∀ s ∈ ss, s.U.det ≠ 0) (h1 : Ks.length = ss.length) (h2 : ds.length = ss.length) :
    (List.range ss.length).mapM (fun k => do
      let s ← pyGet ss k
      let UI ← inv s.U
      let Kx ← pyGet Ks k
      let d ← pyGet ds k
      return (Kx + UI * s.Mᵀ * s.H, d + (UI * s.Mᵀ) *ᵥ s.r + s.s)) = (.ok (backGains ss Ks ds) : Py _) := by
  rw [mapM_range_ok]
  induction ss generalizing Ks ds with
  | nil => exact ⟨rfl, fun k hk => by simp at hk⟩
  | cons s ss ih =>
    cases Ks with
    | nil => simp at h1
    | cons Kx Ks =>
      cases ds with
      | nil => simp at h2
      | cons d ds =>
        obtain ⟨i1, i2⟩ := ih (Ks := Ks) (ds := ds) (fun s h => hU s (by simp [h])) (by simpa using h1) (by simpa using h2)
        refine ⟨by simp [backGains, i1], fun k hk => ?_⟩
        cases k with
        | zero =>
          refine ⟨_, rfl, ?_⟩
          rw [bind_ok]; refine ⟨s, rfl, ?_⟩
          rw [bind_ok]; refine ⟨minv s.U, luFactor_ok.2 ⟨hU s (by simp), rfl⟩, ?_⟩
          rfl
        | succ k =>
          obtain ⟨b, hb, hf⟩ := i2 k (by simpa using hk)
          exact ⟨b, by simpa [backGains] using hb, hf⟩

omit [LinearOrder K] [IsStrictOrderedRing K] [Field K] in
theorem forall₂_left {α β : Type*} {R : α → β → Prop} {l : List α} {r : List β} (h : List.Forall₂ R l r) {a : α}
    (ha : a ∈ l) : ∃ b, R a b := by
  induction h with
  | nil => simp at ha
  | cons h1 _ ih =>
    rcases List.mem_cons.1 ha with rfl | ha
    · exact ⟨_, h1⟩
    · exact ih ha

theorem transformed_iff {P : LQT n m K} (hP : P.Sym) (hZ : ∀ s ∈ P.stages, s.Z = 1) {r : BwResult n m K} :
    P.seqTransformedBackwardPass = .ok r ↔ P.stages ≠ [] ∧ (∀ s ∈ P.stages, s.U.det ≠ 0) ∧
      (∀ s ∈ P.stages, ∀ t ∈ P.stages, s.p = t.p) ∧ P.seqBackwardPass = .ok r := by
  unfold LQT.seqTransformedBackwardPass
  cases hst : P.stages with
  | nil => simp [throw, throwThe, MonadExceptOf.throw]
  | cons s0 ss =>
    simp only
    rw [← hst]
    have hne : P.stages ≠ [] := by simp [hst]
    have hs0 : s0 ∈ P.stages := by simp [hst]
    have hp : (P.stages.any (fun s => s.p != s0.p)) = false ↔ ∀ s ∈ P.stages, ∀ t ∈ P.stages, s.p = t.p := by
      simp only [List.any_eq_false, bne_iff_ne, ne_eq, not_not]
      constructor
      · intro h s hs t ht; rw [h s hs, h t ht]
      · intro h s hs; exact h s hs s0 hs0
    rw [bind_ok]
    constructor
    · rintro ⟨ts, h1, h2⟩
      have h1' := mapM_ok_iff.1 h1
      have hU : ∀ s ∈ P.stages, s.U.det ≠ 0 := by
        intro s hs
        obtain ⟨t, ht⟩ := forall₂_left h1' hs
        exact (transformed_ok.1 ht).1
      cases ha : P.stages.any (fun s => s.p != s0.p) with
      | true => rw [ha] at h2; cases h2
      | false =>
        rw [ha] at h2
        simp only [Bool.false_eq_true, if_false] at h2
        rw [bind_ok] at h2
        obtain ⟨bw, h3, h4⟩ := h2
        obtain ⟨S, v, hb⟩ := seqBackwardPass_iff.1 h3
        simp only at hb
        have hb' := (transformed_bw (term_symm P hP.2) hP.1 hZ h1').1 hb
        have hlen := hb.length
        rw [← h1'.length_eq] at hlen
        rw [bind_ok] at h4
        obtain ⟨gs, h5, h6⟩ := h4
        rw [transGains_ok hU hlen.1 hlen.2.1, Except.ok.injEq] at h5
        subst h5
        simp only [pure, Except.pure, Except.ok.injEq] at h6
        subst h6
        exact ⟨hne, hU, hp.1 ha, seqBackwardPass_iff.2 ⟨S, v, hb'⟩⟩
    · rintro ⟨-, hU, hpp, hb⟩
      obtain ⟨S, v, hb⟩ := seqBackwardPass_iff.1 hb
      obtain ⟨ts, h1, -⟩ := mapM_total (f := LStage.transformed) (Q := fun _ => True) (l := P.stages)
        (fun s hs => ⟨_, transformed_ok.2 ⟨hU s hs, rfl⟩, trivial⟩)
      refine ⟨ts, mapM_ok_iff.2 h1, ?_⟩
      rw [hp.2 hpp]
      simp only [Bool.false_eq_true, if_false]
      obtain ⟨r', hb'⟩ := (transformed_bw (term_symm P hP.2) hP.1 hZ h1).2 hb
      have h3 : LQT.seqBackwardPass { P with stages := ts } = .ok r' := seqBackwardPass_iff.2 ⟨S, v, hb'⟩
      have hlen := hb'.length
      rw [← h1.length_eq] at hlen
      rw [bind_ok]
      refine ⟨r', h3, ?_⟩
      rw [bind_ok]
      refine ⟨_, transGains_ok hU hlen.1 hlen.2.1, ?_⟩
      have h4 := (transformed_bw (term_symm P hP.2) hP.1 hZ h1).1 hb'
      obtain ⟨-, -, rfl⟩ := hb.det h4
      rfl

end Ordered

end Verif
