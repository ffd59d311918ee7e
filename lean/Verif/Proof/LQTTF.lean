import Verif.Spec.LQTTF
import Verif.Proof.LQTTrans

/-! The TensorFlow passes of the tracking problem. -/

namespace Verif

open Matrix

variable {n m p q : ℕ} {K : Type} [Field K]

/-! ### Lists and scans -/

omit [Field K] in
theorem forall₂_get {α β : Type*} {R : α → β → Prop} {l : List α} {r : List β} :
    List.Forall₂ R l r ↔ r.length = l.length ∧ ∀ (k : ℕ) (a : α), l[k]? = some a → ∃ b, r[k]? = some b ∧ R a b := by
  constructor
  · intro h
    induction h with
    | nil => simp
    | cons h1 _ ih =>
      refine ⟨by simp [ih.1], fun k a hk => ?_⟩
      cases k with
      | zero => simp only [List.getElem?_cons_zero, Option.some.injEq] at hk; subst hk; exact ⟨_, rfl, h1⟩
      | succ k => simpa using ih.2 k a (by simpa using hk)
  · induction l generalizing r with
    | nil => rintro ⟨h, -⟩; rw [List.length_eq_zero_iff.1 h]; exact .nil
    | cons a l ih =>
      rintro ⟨h1, h2⟩
      cases r with
      | nil => simp at h1
      | cons b r =>
        obtain ⟨b', hb, hR⟩ := h2 0 a rfl
        simp only [List.getElem?_cons_zero, Option.some.injEq] at hb
        subst hb
        exact .cons hR (ih ⟨by simpa using h1, fun k a hk => by simpa using h2 (k + 1) a (by simpa using hk)⟩)

theorem tfScan_suffix {α : Type} {scan : (α → α → Py α) → List α → Py (List α)} (hs : IsAssocScan scan)
    {op : α → α → Py α} {l r : List α} (h : scan (fun jk ij => op ij jk) l.reverse = .ok r) :
    r.reverse.length = l.length ∧ ∀ k < l.length, ∃ v, r.reverse[k]? = some v ∧ Paren op (l.drop k) v := by
  obtain ⟨h1, h2⟩ := hs.pref h
  rw [List.length_reverse] at h1 h2
  refine ⟨by simp [h1], fun k hk => ?_⟩
  obtain ⟨v, hv, hp⟩ := h2 (l.length - 1 - k) (by omega)
  refine ⟨v, ?_, ?_⟩
  · rw [List.getElem?_reverse (by omega), h1, hv]
  · have hp' := paren_swap hp
    rw [List.reverse_take, List.reverse_reverse, List.length_reverse] at hp'
    have e : l.length - (l.length - 1 - k + 1) = k := by omega
    rw [e] at hp'
    exact hp'

/-! ### Hypotheses -/

theorem TFLQT.Sym.toLQT {P : TFLQT n m p q K} (h : P.Sym) : P.toLQT.Sym := by
  refine ⟨fun s hs => ?_, h.2⟩
  obtain ⟨t, ht, rfl⟩ := List.mem_map.1 hs
  exact h.1 t ht

section Ordered
variable [LinearOrder K] [IsStrictOrderedRing K]

theorem TStage.toL_convex {s : TStage n m p K} (hX : IsPSD s.X) (hU : s.Uᵀ = s.U) (hp : IsPD s.U) : s.toL.Convex where
  sym := ⟨hX.1, hU⟩
  det := by show (1 : Matrix (Fin m) (Fin m) K).det ≠ 0; simp
  pd := hp
  joint := by
    have key : ∀ (y : Fin p → K) (z : Fin m → K),
        0 ≤ y ⬝ᵥ s.X *ᵥ y + 2 * (y ⬝ᵥ (0 : Matrix (Fin p) (Fin m) K) *ᵥ z) + z ⬝ᵥ s.U *ᵥ z := by
      intro y z
      simp only [zero_mulVec, dotProduct_zero, mul_zero, add_zero]
      exact add_nonneg (hX.2 y) (hp.nonneg z)
    exact key

theorem TFLQT.Convex.toLQT {P : TFLQT n m p q K} (h : P.Convex) : P.toLQT.Convex := by
  refine ⟨fun s hs => ?_, h.2⟩
  obtain ⟨t, ht, rfl⟩ := List.mem_map.1 hs
  exact TStage.toL_convex (h.1 t ht).1 (h.1 t ht).2.1 (h.1 t ht).2.2

omit [IsStrictOrderedRing K] in
theorem TFLQT.Convex.toSym {P : TFLQT n m p q K} (h : P.Convex) : P.Sym :=
  ⟨fun s hs => ⟨(h.1 s hs).1.1, (h.1 s hs).2.1⟩, h.2.1⟩

/-! ### Backward pass -/

omit [LinearOrder K] [IsStrictOrderedRing K] in
theorem lowerSym_eq {A : Matrix (Fin n) (Fin n) K} (h : Aᵀ = A) : lowerSym A = A := by
  ext i j
  simp only [lowerSym, of_apply]
  split
  · rfl
  · have := congrFun (congrFun h i) j
    simpa using this

omit [IsStrictOrderedRing K] in
theorem tfCholesky_eq {A : Matrix (Fin n) (Fin n) K} (h : Aᵀ = A) : tfCholesky A = choFactor A := by
  unfold tfCholesky choFactor
  rw [lowerSym_eq h, upperSym_eq h]

omit [IsStrictOrderedRing K] in
theorem TStage.gains_eq {s : TStage n m p K} (hU : s.Uᵀ = s.U) {S : Matrix (Fin n) (Fin n) K} (hS : Sᵀ = S)
    (v : Fin n → K) : s.gains S v = s.toL.gains S v := by
  have h : s.toL.gains S v = (do
      let cf ← choFactor ((1 : Matrix (Fin m) (Fin m) K)ᵀ * s.U * 1 + s.Lᵀ * S * s.L)
      let Kx := choSolve cf ((1 : Matrix (Fin m) (Fin m) K)ᵀ * (0 : Matrix (Fin p) (Fin m) K)ᵀ * s.H + s.Lᵀ * S * s.F)
      let d := choSolveV cf (((1 : Matrix (Fin m) (Fin m) K)ᵀ * s.U) *ᵥ 0 +
        ((1 : Matrix (Fin m) (Fin m) K)ᵀ * (0 : Matrix (Fin p) (Fin m) K)ᵀ) *ᵥ s.r - (s.Lᵀ * S) *ᵥ s.c + s.Lᵀ *ᵥ v)
      return (Kx, d)) := rfl
  rw [h]
  unfold TStage.gains
  have hsym : (s.U + s.Lᵀ * S * s.L)ᵀ = s.U + s.Lᵀ * S * s.L := by
    simp only [transpose_add, transpose_mul, transpose_transpose, hU, hS, Matrix.mul_assoc]
  have e : s.Lᵀ *ᵥ (v - S *ᵥ s.c) = -((s.Lᵀ * S) *ᵥ s.c) + s.Lᵀ *ᵥ v := by
    rw [mulVec_sub, mulVec_mulVec]; abel
  simp only [transpose_one, Matrix.one_mul, Matrix.mul_one, transpose_zero, Matrix.zero_mul, zero_add, mulVec_zero,
    zero_mulVec, zero_sub, tfCholesky_eq hsym, e]

omit [IsStrictOrderedRing K] in
theorem TStage.bwBody_ok {s : TStage n m p K} (hU : s.Uᵀ = s.U) {st st' : TCarry n m K} (hS : st.Sᵀ = st.S) :
    s.bwBody st = .ok st' ↔ s.toL.gains st.S st.v = .ok (st'.Kx, st'.d) ∧
      st'.S = (s.toL.riccati st'.Kx st.S st.v).1 ∧ st'.v = (s.toL.riccati st'.Kx st.S st.v).2 := by
  have e1 : ∀ Kx, (s.toL.riccati Kx st.S st.v).1 = s.Fᵀ * (st.S * (s.F - s.L * Kx)) + s.Hᵀ * (s.X * s.H) := by
    intro Kx
    have h : (s.toL.riccati Kx st.S st.v).1 = s.Hᵀ * s.X * s.H -
      s.Hᵀ * (0 : Matrix (Fin p) (Fin m) K) * (1 : Matrix (Fin m) (Fin m) K) * Kx + s.Fᵀ * st.S * (s.F - s.L * Kx) := rfl
    rw [h]
    simp only [Matrix.mul_zero, Matrix.zero_mul, sub_zero, Matrix.mul_assoc]
    rw [add_comm]
  have e2 : ∀ Kx, (s.toL.riccati Kx st.S st.v).2 =
      s.Hᵀ *ᵥ (s.X *ᵥ s.r) + (s.F - s.L * Kx)ᵀ *ᵥ (st.v - st.S *ᵥ s.c) := by
    intro Kx
    have h : (s.toL.riccati Kx st.S st.v).2 = (s.Hᵀ * s.X) *ᵥ s.r -
      (Kxᵀ * (1 : Matrix (Fin m) (Fin m) K)ᵀ * s.U) *ᵥ 0 + (s.Hᵀ * (0 : Matrix (Fin p) (Fin m) K)) *ᵥ 0 -
      (Kxᵀ * (1 : Matrix (Fin m) (Fin m) K)ᵀ * (0 : Matrix (Fin p) (Fin m) K)ᵀ) *ᵥ s.r +
      (s.F - s.L * Kx)ᵀ *ᵥ (st.v - st.S *ᵥ s.c) := rfl
    rw [h]
    simp only [mulVec_zero, transpose_zero, Matrix.mul_zero, zero_mulVec, sub_zero, add_zero, mulVec_mulVec]
  unfold TStage.bwBody
  rw [bind_ok, TStage.gains_eq hU hS]
  constructor
  · rintro ⟨⟨Kx, d⟩, h1, h2⟩
    simp only [pure, Except.pure, Except.ok.injEq] at h2
    subst h2
    exact ⟨h1, (e1 _).symm, (e2 _).symm⟩
  · rintro ⟨h1, h2, h3⟩
    refine ⟨_, h1, ?_⟩
    obtain ⟨S, v, Kx, d⟩ := st'
    simp only at h2 h3
    rw [h2, h3, e1, e2]
    rfl

theorem tfScanRev_iff {S0 : Matrix (Fin n) (Fin n) K} {v0 : Fin n → K} (h0 : S0ᵀ = S0) {K0 : Matrix (Fin m) (Fin n) K}
    {d0 : Fin m → K} (ss : List (TStage n m p K)) (hs : ∀ s ∈ ss, s.Xᵀ = s.X ∧ s.Uᵀ = s.U) {S : Matrix (Fin n) (Fin n) K}
    {v : Fin n → K} {r : BwResult n m K} :
    (∃ rs st, tfScanRev (fun st s => TStage.bwBody s st) ⟨S0, v0, K0, d0⟩ ss = .ok (rs, st) ∧ st.S = S ∧ st.v = v ∧
      r = ⟨rs.map TCarry.Kx, rs.map TCarry.d, rs.map TCarry.S ++ [S0], rs.map TCarry.v ++ [v0]⟩) ↔
    BwOk S0 v0 (ss.map TStage.toL) S v r := by
  induction ss generalizing S v r with
  | nil =>
    constructor
    · rintro ⟨rs, st, h, rfl, rfl, rfl⟩
      simp only [tfScanRev, Except.ok.injEq, Prod.mk.injEq] at h
      obtain ⟨rfl, rfl⟩ := h
      exact BwOk.nil
    · intro h
      cases h
      exact ⟨[], _, rfl, rfl, rfl, rfl⟩
  | cons s ss ih =>
    have hs' : ∀ s ∈ ss, s.Xᵀ = s.X ∧ s.Uᵀ = s.U := fun s h => hs s (by simp [h])
    have hsym : ∀ {S v} {r : BwResult n m K}, BwOk S0 v0 (ss.map TStage.toL) S v r → Sᵀ = S := by
      intro S v r h
      refine h.symm h0 fun s hm => ?_
      obtain ⟨t, ht, rfl⟩ := List.mem_map.1 hm
      exact hs' t ht
    constructor
    · rintro ⟨rs, st, h, rfl, rfl, rfl⟩
      simp only [tfScanRev] at h
      rw [bind_ok] at h
      obtain ⟨⟨rs1, st1⟩, h1, h⟩ := h
      rw [bind_ok] at h
      obtain ⟨st2, h2, h3⟩ := h
      simp only [pure, Except.pure, Except.ok.injEq, Prod.mk.injEq] at h3
      obtain ⟨rfl, rfl⟩ := h3
      have hb := (ih hs').1 ⟨rs1, st1, h1, rfl, rfl, rfl⟩
      obtain ⟨g1, g2, g3⟩ := (TStage.bwBody_ok (hs s (by simp)).2 (hsym hb)).1 h2
      have := BwOk.cons hb g1
      rw [← g2, ← g3] at this
      exact this
    · intro h
      rw [List.map_cons] at h
      cases h with
      | @cons _ _ S v r Kx d h hg =>
        obtain ⟨rs, st, h1, rfl, rfl, rfl⟩ := (ih hs').2 h
        refine ⟨⟨_, _, Kx, d⟩ :: rs, ⟨_, _, Kx, d⟩, ?_, rfl, rfl, rfl⟩
        simp only [tfScanRev]
        rw [h1]
        show (TStage.bwBody s st >>= fun b => pure (b :: rs, b)) = _
        have := (TStage.bwBody_ok (st' := ⟨(s.toL.riccati Kx st.S st.v).1, (s.toL.riccati Kx st.S st.v).2, Kx, d⟩)
          (hs s (by simp)).2 (hsym h)).2 ⟨hg, rfl, rfl⟩
        rw [this]
        rfl

theorem tf_seq_bw {P : TFLQT n m p q K} (hP : P.Sym) {r : BwResult n m K} :
    P.seqBackward = .ok r ↔ P.toLQT.seqBackwardPass = .ok r := by
  have h0 := term_symm P.toLQT hP.2
  have e1 : P.HTᵀ * (P.XT * P.HT) = P.HTᵀ * P.XT * P.HT := by rw [Matrix.mul_assoc]
  have e2 : P.HTᵀ *ᵥ (P.XT *ᵥ P.rT) = (P.HTᵀ * P.XT) *ᵥ P.rT := by rw [mulVec_mulVec]
  rw [seqBackwardPass_iff]
  unfold TFLQT.seqBackward
  simp only [e1, e2]
  rw [bind_ok]
  constructor
  · rintro ⟨⟨rs, st⟩, h1, h2⟩
    simp only [pure, Except.pure, Except.ok.injEq] at h2
    subst h2
    exact ⟨_, _, (tfScanRev_iff (K0 := 0) (d0 := 0) h0 P.stages hP.1).1 ⟨rs, st, h1, rfl, rfl, rfl⟩⟩
  · rintro ⟨S, v, h⟩
    obtain ⟨rs, st, h1, rfl, rfl, rfl⟩ := (tfScanRev_iff (K0 := 0) (d0 := 0) h0 P.stages hP.1).2 h
    exact ⟨_, h1, rfl⟩

/-! ### Parallel backward pass -/

omit [IsStrictOrderedRing K] in
theorem TStage.elem_isElem {s : TStage n m p K} (hs : s.Xᵀ = s.X ∧ s.Uᵀ = s.U) {e : Elem n K} (h : s.elem = .ok e) :
    s.toL.IsElem e := by
  unfold TStage.elem at h
  rw [bind_ok] at h
  obtain ⟨W, hW, h⟩ := h
  obtain ⟨hU, hW⟩ := solve_ok.1 hW
  simp only [pure, Except.pure, Except.ok.injEq] at h
  subst h
  have hW' : W = minv s.U * s.Lᵀ := by rw [← hW, ← Matrix.mul_assoc, minv_mul hU, Matrix.one_mul]
  refine ⟨⟨?_, ?_⟩, fun x l x' l' => ?_⟩
  · simp only [hW', transpose_mul, transpose_transpose, minv_transpose, hs.2, Matrix.mul_assoc]
  · simp only [transpose_mul, transpose_transpose, hs.1, Matrix.mul_assoc]
  · have k : ∀ u, s.toL.Kkt x l u x' l' ↔ x' = s.F *ᵥ x + s.c + s.L *ᵥ u ∧
        l = s.Hᵀ *ᵥ (s.X *ᵥ (s.H *ᵥ x - s.r)) + s.Fᵀ *ᵥ l' ∧ s.U *ᵥ u + s.Lᵀ *ᵥ l' = 0 := by
      intro u
      have h : s.toL.Kkt x l u x' l' ↔ x' = s.F *ᵥ x + s.c + s.L *ᵥ u ∧
        l = s.Hᵀ *ᵥ (s.X *ᵥ (s.H *ᵥ x - s.r) +
          (0 : Matrix (Fin p) (Fin m) K) *ᵥ ((1 : Matrix (Fin m) (Fin m) K) *ᵥ u - 0)) + s.Fᵀ *ᵥ l' ∧
        (1 : Matrix (Fin m) (Fin m) K)ᵀ *ᵥ (s.U *ᵥ ((1 : Matrix (Fin m) (Fin m) K) *ᵥ u - 0) +
          (0 : Matrix (Fin p) (Fin m) K)ᵀ *ᵥ (s.H *ᵥ x - s.r)) + s.Lᵀ *ᵥ l' = 0 := Iff.rfl
      rw [h]
      simp only [zero_mulVec, transpose_zero, transpose_one, one_mulVec, add_zero, sub_zero]
    simp only [k, Elem.Rel]
    have hst : ∀ u, s.U *ᵥ u + s.Lᵀ *ᵥ l' = 0 ↔ u = -(W *ᵥ l') := by
      intro u
      constructor
      · intro h
        apply mulVec_inj_of_det hU
        rw [mulVec_neg, mulVec_mulVec, hW]
        exact eq_neg_of_add_eq_zero_left h
      · rintro rfl
        rw [mulVec_neg, mulVec_mulVec, hW]
        abel
    simp only [hst]
    constructor
    · rintro ⟨h1, h2⟩
      refine ⟨_, ?_, ?_, rfl⟩
      · rw [h1, mulVec_neg, mulVec_mulVec]; abel
      · rw [h2]
        simp only [mulVec_sub, mulVec_mulVec, Matrix.mul_assoc]
    · rintro ⟨u, h1, h2, rfl⟩
      refine ⟨?_, ?_⟩
      · rw [h1, mulVec_neg, mulVec_mulVec]; abel
      · rw [h2]
        simp only [mulVec_sub, mulVec_mulVec, Matrix.mul_assoc]

omit [IsStrictOrderedRing K] in
theorem tfCombV_eq : (tfCombV : Elem n K → Elem n K → Py (Elem n K)) = combineABCEJ := rfl

omit [IsStrictOrderedRing K] in
theorem tfElems_isElem {ss : List (TStage n m p K)} {es : List (Elem n K)} (hs : ∀ s ∈ ss, s.Xᵀ = s.X ∧ s.Uᵀ = s.U)
    (h : List.Forall₂ (fun s e => TStage.elem s = .ok e) ss es) :
    List.Forall₂ LStage.IsElem (ss.map TStage.toL) es := by
  induction h with
  | nil => exact .nil
  | cons h1 h2 ih => exact .cons (TStage.elem_isElem (hs _ (by simp)) h1) (ih fun s h => hs s (by simp [h]))

theorem tf_par_bw {scan : (Elem n K → Elem n K → Py (Elem n K)) → List (Elem n K) → Py (List (Elem n K))}
    (hs : IsAssocScan scan) {P : TFLQT n m p q K} (hP : P.Sym) {r : BwResult n m K}
    (h : P.parBackward scan = .ok r) : P.toLQT.seqBackwardPass = .ok r := by
  unfold TFLQT.parBackward at h
  rw [bind_ok] at h
  obtain ⟨most, h1, h⟩ := h
  rw [bind_ok] at h
  obtain ⟨rev, h2, h⟩ := h
  rw [bind_ok] at h
  obtain ⟨gs, h3, h4⟩ := h
  simp only [pure, Except.pure, Except.ok.injEq] at h4
  have hes := mapM_ok_iff.1 h1
  have hel := tfElems_isElem hP.1 hes
  obtain ⟨hl, hp⟩ := tfScan_suffix (op := combineABCEJ) hs h2
  have hlen : (most ++ [P.lastElem]).length = P.stages.length + 1 := by simp [hes.length_eq]
  rw [hlen] at hl hp
  have hlast : P.lastElem = ⟨0, 0, 0, (P.HTᵀ * P.XT) *ᵥ P.rT, P.HTᵀ * P.XT * P.HT⟩ := by
    unfold TFLQT.lastElem; rw [mulVec_mulVec, Matrix.mul_assoc]
  have h0 := term_symm P.toLQT hP.2
  have hsymE : ∀ e ∈ most ++ [P.lastElem], e.Sym := by
    intro e he
    rcases List.mem_append.1 he with he | he
    · exact isElem_sym hel e he
    · rw [List.mem_singleton.1 he, hlast]; exact ⟨by simp, h0⟩
  have hg := forall₂_get.1 (mapM_ok_iff.1 h3)
  have hzl : (P.stages.zip ((rev.reverse.map Elem.J).tail.zip (rev.reverse.map Elem.eta).tail)).length
      = P.stages.length := by
    simp only [List.length_zip, List.length_tail, List.length_map, hl]; omega
  obtain ⟨S, v, -, hb, -⟩ := bw_of_elems (S0 := P.HTᵀ * P.XT * P.HT) (v0 := (P.HTᵀ * P.XT) *ᵥ P.rT) h0 hel hP.toLQT.1
    (elems := rev.reverse) (gs := gs) (by simpa using hl)
    (fun k hk => by rw [← hlast]; exact hp k (by simp at hk; omega)) (by rw [hg.1, hzl]; simp)
    (by
      intro k hk
      have hk' : k < P.stages.length := by simpa using hk
      obtain ⟨e, he, hpe⟩ := hp (k + 1) (by omega)
      have hz : (P.stages.zip ((rev.reverse.map Elem.J).tail.zip (rev.reverse.map Elem.eta).tail))[k]? =
          some (P.stages[k], e.J, e.eta) := by
        rw [List.getElem?_zip_eq_some]
        refine ⟨by simp [hk'], ?_⟩
        rw [List.getElem?_zip_eq_some]
        simp only [List.getElem?_tail, List.getElem?_map, he]
        exact ⟨rfl, rfl⟩
      obtain ⟨g, hgk, hgg⟩ := hg.2 k _ hz
      have hJ : e.Jᵀ = e.J :=
        (paren_rel hpe fun x hx => hsymE x (List.mem_of_mem_drop hx)).1.2
      refine ⟨(P.stages[k]).toL, e, g, by simp [hk'], he, ?_, hgk⟩
      rw [← TStage.gains_eq (hP.1 _ (List.getElem_mem hk')).2 hJ]
      exact hgg)
  rw [seqBackwardPass_iff]
  refine ⟨S, v, ?_⟩
  rw [← h4]
  exact hb

theorem TStage.elem_convex {s : TStage n m p K} (h : IsPSD s.X ∧ s.Uᵀ = s.U ∧ IsPD s.U) :
    ∃ e, s.elem = .ok e ∧ e.PSD := by
  obtain ⟨hX, hU, hp⟩ := h
  refine ⟨⟨s.F, s.c, s.L * (minv s.U * s.Lᵀ), s.Hᵀ *ᵥ (s.X *ᵥ s.r), s.Hᵀ * (s.X * s.H)⟩, ?_, ?_⟩
  · unfold TStage.elem
    rw [bind_ok]
    exact ⟨_, solve_ok.2 ⟨hp.det_ne_zero, by rw [← Matrix.mul_assoc, mul_minv hp.det_ne_zero, Matrix.one_mul]⟩, rfl⟩
  · have hI : IsPSD (minv s.U) := by
      refine ⟨by rw [minv_transpose, hU], fun x => ?_⟩
      have e : x = s.U *ᵥ (minv s.U *ᵥ x) := by rw [mulVec_mulVec, mul_minv hp.det_ne_zero, one_mulVec]
      have : x ⬝ᵥ minv s.U *ᵥ x = (minv s.U *ᵥ x) ⬝ᵥ s.U *ᵥ (minv s.U *ᵥ x) := by
        rw [← e, dotProduct_comm]
      rw [this]
      exact hp.nonneg _
    refine ⟨?_, ?_⟩
    · have := psd_conj (H := s.Lᵀ) hI
      rwa [transpose_transpose, Matrix.mul_assoc] at this
    · have := psd_conj (H := s.H) hX
      rwa [Matrix.mul_assoc] at this

theorem tf_elems {P : TFLQT n m p q K} (hP : P.Convex) : ∃ es,
    List.Forall₂ (fun s e => TStage.elem s = .ok e) P.stages es ∧ ∀ e ∈ es, e.PSD :=
  mapM_total fun s hs => TStage.elem_convex (hP.1 s hs)

theorem tf_par_bw_total {scan : (Elem n K → Elem n K → Py (Elem n K)) → List (Elem n K) → Py (List (Elem n K))}
    (hs : IsAssocScan scan) {P : TFLQT n m p q K} (hP : P.Convex) : ∃ r, P.parBackward scan = .ok r := by
  obtain ⟨es, hes, hpsd⟩ := tf_elems hP
  have hlastp : P.lastElem.PSD := by
    refine ⟨⟨by simp [TFLQT.lastElem], by simp [TFLQT.lastElem]⟩, ?_⟩
    have := psd_conj (H := P.HT) hP.2
    rwa [Matrix.mul_assoc] at this
  have hall : ∀ e ∈ es ++ [P.lastElem], e.PSD := by
    intro e he
    rcases List.mem_append.1 he with he | he
    · exact hpsd e he
    · rw [List.mem_singleton.1 he]; exact hlastp
  obtain ⟨rev, hrev⟩ := hs.total (op := tfCombVRev) (l := (es ++ [P.lastElem]).reverse) Elem.PSD
    (fun x y hx hy => psd_closed y x hy hx) (by simp) (fun e he => hall e (List.mem_reverse.1 he))
  obtain ⟨hl, hp⟩ := tfScan_suffix (op := combineABCEJ) hs hrev
  have hpsd' : ∀ e ∈ rev.reverse, e.PSD := by
    intro e he
    obtain ⟨k, hk, rfl⟩ := List.getElem_of_mem he
    obtain ⟨v, hv, hpv⟩ := hp k (by omega)
    rw [List.getElem?_eq_getElem hk, Option.some.injEq] at hv
    rw [hv]
    exact hpv.prop (fun x y z hx hy hz => combine_psd hz hx hy) (fun x hx => hall x (List.mem_of_mem_drop hx))
  obtain ⟨gs, hgs, -⟩ := mapM_total (Q := fun _ => True)
    (l := P.stages.zip ((rev.reverse.map Elem.J).tail.zip (rev.reverse.map Elem.eta).tail))
    (f := fun a => a.1.gains a.2.1 a.2.2) (by
      rintro ⟨s, S, v⟩ ha
      obtain ⟨h1, h2⟩ := List.of_mem_zip ha
      obtain ⟨h3, -⟩ := List.of_mem_zip h2
      obtain ⟨e, he, rfl⟩ := List.mem_map.1 (List.mem_of_mem_tail h3)
      have hJ := (hpsd' e he).2
      obtain ⟨Kx, d, hg⟩ := gains_convex (TStage.toL_convex (hP.1 s h1).1 (hP.1 s h1).2.1 (hP.1 s h1).2.2) hJ v
      exact ⟨_, by rw [TStage.gains_eq (hP.1 s h1).2.1 hJ.1]; exact hg, trivial⟩)
  refine ⟨⟨gs.map Prod.fst, gs.map Prod.snd, rev.reverse.map Elem.J, rev.reverse.map Elem.eta⟩, ?_⟩
  unfold TFLQT.parBackward
  rw [bind_ok]; refine ⟨es, mapM_ok_iff.2 hes, ?_⟩
  rw [bind_ok]; refine ⟨rev, hrev, ?_⟩
  rw [bind_ok]; exact ⟨gs, mapM_ok_iff.2 hgs, rfl⟩

/-! ### Combined pass -/

theorem tf_fwdbwd {scan : (Elem n K → Elem n K → Py (Elem n K)) → List (Elem n K) → Py (List (Elem n K))}
    (hs : IsAssocScan scan) {P : TFLQT n m p q K} (hP : P.Sym) {bw : BwResult n m K}
    (hb : P.toLQT.seqBackwardPass = .ok bw) {x0 : Fin n → K} :
    (∀ res, P.parFwdBwd scan x0 bw = .ok res →
      P.toLQT.seqForwardPass x0 bw.Kx_list bw.d_list = .ok (res.2, res.1)) ∧
    (P.Convex → ∃ res, P.parFwdBwd scan x0 bw = .ok res) := by
  obtain ⟨S, v, hb⟩ := seqBackwardPass_iff.1 hb
  obtain ⟨l1, l2, l3, l4⟩ := hb.length
  have hTl : P.toLQT.stages.length = P.stages.length := by simp [TFLQT.toLQT]
  have h0 := term_symm P.toLQT hP.2
  constructor
  · intro res h
    unfold TFLQT.parFwdBwd at h
    rw [bind_ok] at h
    obtain ⟨most, h1, h⟩ := h
    rw [bind_ok] at h
    obtain ⟨elems, h2, h⟩ := h
    rw [bind_ok] at h
    obtain ⟨xs, h3, h4⟩ := h
    simp only [pure, Except.pure, Except.ok.injEq] at h4
    have hes := mapM_ok_iff.1 h1
    have hel := tfElems_isElem hP.1 hes
    obtain ⟨us, hul, hf⟩ := lqtForwardLoop_ok l1 l2 x0
    have hrl : (lqtRun P.toLQT.stages x0 us).length = P.stages.length := by
      rw [lqtRun_length (by omega), hul, hTl]
    obtain ⟨hl, hp⟩ := hs.pref h2
    rw [List.length_cons, ← hes.length_eq] at hl hp
    obtain ⟨hxl, hx⟩ := forall₂_get.1 (mapM_ok_iff.1 h3)
    have hxl' : xs.length = P.stages.length + 1 := by
      rw [hxl]; simp only [List.length_zip, hl]; omega
    have hxs : xs = x0 :: lqtRun P.toLQT.stages x0 us := by
      apply list_ext_of hxl' (by simp [hrl])
      intro k hk
      obtain ⟨e, he, hpe⟩ := hp k (by omega)
      obtain ⟨Sk, vk, xk, a1, a2, a3, a4⟩ := prefix_states h0 hb hP.toLQT.1 hel hf (k := k) (by omega) hpe
      obtain ⟨y, hy, hyy⟩ := hx k (e, Sk, vk) (by
        rw [List.getElem?_zip_eq_some]
        refine ⟨he, ?_⟩
        rw [List.getElem?_zip_eq_some]
        exact ⟨a1, a2⟩)
      rw [hy, a3, solve_state a4 hyy]
    have hus : List.zipWith (fun Kd x => -(Kd.1 *ᵥ x) + Kd.2) (bw.Kx_list.zip bw.d_list) xs.dropLast = us := by
      apply list_ext_of (n := P.stages.length) _ (by omega)
      · intro k hk
        obtain ⟨Kx, d, y, b1, b2, b3, b4⟩ := fwd_controls hf (k := k) (by omega)
        rw [b4, List.getElem?_zipWith]
        have : xs.dropLast[k]? = some y := by
          rw [List.getElem?_dropLast, if_pos (by omega), hxs, b3]
        rw [this]
        have : (bw.Kx_list.zip bw.d_list)[k]? = some (Kx, d) := by
          rw [List.getElem?_zip_eq_some]; exact ⟨b1, b2⟩
        rw [this]
        simp [neg_mulVec]
      · simp only [List.length_zipWith, List.length_zip, List.length_dropLast, hxl']; omega
    rw [← h4]
    simp only
    rw [hus, hxs]
    unfold LQT.seqForwardPass
    rw [hf]
    rfl
  · intro hc
    obtain ⟨es, hes, hpsd⟩ := tf_elems hc
    have hall : ∀ e ∈ (⟨0, x0, 0, 0, 0⟩ :: es : List (Elem n K)), e.PSD := by
      intro e he
      rcases List.mem_cons.1 he with rfl | he
      · exact ⟨⟨by simp, by simp⟩, by simp, by simp⟩
      · exact hpsd e he
    obtain ⟨elems, hsc⟩ := hs.total (op := tfCombV) (l := ⟨0, x0, 0, 0, 0⟩ :: es) Elem.PSD psd_closed (by simp) hall
    obtain ⟨hl, hp⟩ := hs.pref hsc
    have hS : ∀ T ∈ bw.S_list, IsPSD T := by
      obtain ⟨S', v', r', hb', -, hr'⟩ := bw_convex (psd_conj hc.2) _ P.toLQT.stages hc.toLQT.1
      obtain ⟨-, -, rfl⟩ := hb.det hb'
      exact hr'
    have hpsd' : ∀ e ∈ elems, e.PSD := by
      intro e he
      obtain ⟨k, hk, rfl⟩ := List.getElem_of_mem he
      obtain ⟨v, hv, hpv⟩ := hp k (by omega)
      rw [List.getElem?_eq_getElem hk, Option.some.injEq] at hv
      rw [hv]
      exact psd_of_prefix hall hpv
    obtain ⟨xs, hxs, -⟩ := mapM_total (Q := fun _ => True) (l := elems.zip (bw.S_list.zip bw.v_list))
      (f := fun a => solveV (1 + a.1.C * a.2.1) (a.1.b + a.1.C *ᵥ a.2.2)) (by
        rintro ⟨e, T, w⟩ ha
        obtain ⟨k1, k2⟩ := List.of_mem_zip ha
        obtain ⟨k3, -⟩ := List.of_mem_zip k2
        have hd := det_one_add_ne_zero (hpsd' e k1).1 (hS T k3)
        exact ⟨minv (1 + e.C * T) *ᵥ (e.b + e.C *ᵥ w), solveV_ok.2 ⟨hd, by
          rw [mulVec_mulVec, mul_minv hd, one_mulVec]⟩, trivial⟩)
    refine ⟨(xs, List.zipWith (fun Kd x => -(Kd.1 *ᵥ x) + Kd.2) (bw.Kx_list.zip bw.d_list) xs.dropLast), ?_⟩
    · unfold TFLQT.parFwdBwd
      rw [bind_ok]; refine ⟨es, mapM_ok_iff.2 hes, ?_⟩
      rw [bind_ok]; refine ⟨elems, hsc, ?_⟩
      rw [bind_ok]; exact ⟨xs, mapM_ok_iff.2 hxs, rfl⟩

end Ordered

/-! ### Forward passes -/

theorem tfScanFwd_eq (x0 : Fin n → K) (u0 : Fin m → K) (ss : List (LStage n m K)) (gs : List (TFwd n m K))
    (h : List.Forall₂ LStage.SameDyn ss gs) :
    lqtForwardLoop ss (gs.map TFwd.Kx) (gs.map TFwd.d) x0 =
      .ok ((tfScanFwd TFwd.body (x0, u0) gs).map Prod.snd, (tfScanFwd TFwd.body (x0, u0) gs).map Prod.fst) := by
  induction h generalizing x0 u0 with
  | nil => rfl
  | @cons s g ss gs h _ ih =>
    obtain ⟨h1, h2, h3⟩ := h
    simp only [List.map_cons, lqtForwardLoop, tfScanFwd, TFwd.body]
    rw [h1, h2, h3, neg_mulVec, ih _ (-(g.Kx *ᵥ x0) + g.d)]
    rfl

theorem tf_seq_fw {P : LQT n m K} {gs : List (TFwd n m K)} (hne : gs ≠ []) (h : List.Forall₂ LStage.SameDyn P.stages gs)
    (x0 : Fin n → K) :
    (lqtTfSeqForward x0 gs).map Prod.swap = P.seqForwardPass x0 (gs.map TFwd.Kx) (gs.map TFwd.d) := by
  unfold lqtTfSeqForward LQT.seqForwardPass
  rw [tfScanFwd_eq x0 0 P.stages gs h]
  have : gs.isEmpty = false := by simpa using hne
  rw [this]
  rfl

theorem tf_par_fw {scan : (Matrix (Fin n) (Fin n) K × (Fin n → K) → Matrix (Fin n) (Fin n) K × (Fin n → K) →
      Py (Matrix (Fin n) (Fin n) K × (Fin n → K))) → List (Matrix (Fin n) (Fin n) K × (Fin n → K)) →
      Py (List (Matrix (Fin n) (Fin n) K × (Fin n → K)))} (hs : IsAssocScan scan)
    {P : LQT n m K} {gs : List (TFwd n m K)} (hne : gs ≠ []) (h : List.Forall₂ LStage.SameDyn P.stages gs)
    (x0 : Fin n → K) :
    (lqtTfParForward scan x0 gs).map Prod.swap = P.seqForwardPass x0 (gs.map TFwd.Kx) (gs.map TFwd.d) := by
  obtain ⟨hl, h⟩ := forall₂_get.1 h
  cases gs with
  | nil => exact absurd rfl hne
  | cons g rest =>
    set es := TFwd.first x0 g :: rest.map TFwd.most with hes
    have hel : es.length = rest.length + 1 := by simp [hes]
    obtain ⟨el, hel'⟩ := hs.total (op := fun a b => .ok (tfCombF a b)) (l := es) (fun _ => True)
      (fun _ _ _ _ => ⟨_, rfl, trivial⟩) (by simp [hes]) (fun _ _ => trivial)
    obtain ⟨h1, h2⟩ := hs.pref hel'
    have hi : P.parForwardInit x0 ((g :: rest).map TFwd.Kx) ((g :: rest).map TFwd.d) = .ok es := by
      rw [parForwardInit_ok]
      refine ⟨by simp [hes], fun k hk => ?_⟩
      simp only [List.length_map] at hk
      have hk' : k < P.stages.length := by omega
      obtain ⟨g', hg', e1, e2, e3⟩ := h k P.stages[k] (by simp [hk'])
      rw [List.getElem?_eq_getElem hk, Option.some.injEq] at hg'
      subst hg'
      refine ⟨P.stages[k], ((g :: rest)[k]).Kx, ((g :: rest)[k]).d, by simp [hk'], by
        rw [List.getElem?_map, List.getElem?_eq_getElem hk]; rfl, by
        rw [List.getElem?_map, List.getElem?_eq_getElem hk]; rfl, ?_⟩
      rw [e1, e2, e3]
      cases k with
      | zero => rfl
      | succ k =>
        simp only [List.getElem_cons_succ, Nat.add_eq_zero_iff, one_ne_zero, and_false, if_false, hes,
          List.getElem?_cons_succ, List.getElem?_map]
        rw [List.getElem?_eq_getElem (by simpa using hk)]
        rfl
    set us := List.zipWith (fun (h : TFwd n m K) x => -(h.Kx *ᵥ x) + h.d) (g :: rest) (x0 :: el.map Prod.snd).dropLast
      with hus
    have hp : lqtTfParForward scan x0 (g :: rest) = .ok (x0 :: el.map Prod.snd, us) := by
      unfold lqtTfParForward
      simp only [← hes]
      rw [hel']
      rfl
    rw [hp]
    symm
    refine fwd_of_elems hi h1 h2 ?_ ?_
    · simp [hus, h1, hel]
    · intro k hk
      simp only [List.length_map] at hk
      have hk1 : k < (x0 :: el.map Prod.snd).length := by simp at hk ⊢; omega
      refine ⟨((g :: rest)[k]).Kx, ((g :: rest)[k]).d, (x0 :: el.map Prod.snd)[k], by
        rw [List.getElem?_map, List.getElem?_eq_getElem hk]; rfl, by
        rw [List.getElem?_map, List.getElem?_eq_getElem hk]; rfl, by
        rw [List.getElem?_eq_getElem hk1], ?_⟩
      rw [hus, List.getElem?_zipWith, List.getElem?_dropLast, if_pos (by simp at hk ⊢; omega),
        List.getElem?_eq_getElem hk1, List.getElem?_eq_getElem hk]
      simp [neg_mulVec]

/-! ### Cost -/

theorem tf_cost {P : TFLQT n m p q K} {us : List (Fin m → K)} {xs : List (Fin n → K)} (hu : us.length = P.stages.length)
    (hx : xs.length = P.stages.length + 1) : P.cost xs us = P.toLQT.cost us xs := by
  have hne : xs ≠ [] := by rintro rfl; simp at hx
  unfold TFLQT.cost LQT.cost
  rw [List.getLast?_eq_some_getLast hne]
  simp only
  have := lqt_cost_loop P.toLQT.stages xs us (by simp [TFLQT.toLQT, hu]) (by omega)
    (halfQuad P.toLQT.XT (P.toLQT.HT *ᵥ xs.getLast hne - P.toLQT.rT))
  refine Eq.trans ?_ this.symm
  congr 1
  rw [add_assoc]
  have e1 : halfQuad P.toLQT.XT (P.toLQT.HT *ᵥ xs.getLast hne - P.toLQT.rT) =
      (1 / 2) * ((P.XT *ᵥ (P.HT *ᵥ xs.getLast hne - P.rT)) ⬝ᵥ (P.HT *ᵥ xs.getLast hne - P.rT)) := by
    rw [dotProduct_comm]; rfl
  rw [e1]
  congr 1
  have key : ∀ (ss : List (TStage n m p K)) (ys : List (Fin n → K)) (us : List (Fin m → K)) (y : Fin n → K),
      us.length = ss.length → ys.length = ss.length →
      (1 / 2) * ((List.zipWith (fun (s : TStage n m p K) x => (s, s.H *ᵥ x - s.r)) ss ys).map
        fun a => (a.1.X *ᵥ a.2) ⬝ᵥ a.2).sum + (1 / 2) * (List.zipWith (fun (s : TStage n m p K) u =>
          (s.U *ᵥ u) ⬝ᵥ u) ss us).sum = stageSum (ss.map TStage.toL) (ys ++ [y]) us := by
    intro ss
    induction ss with
    | nil => intro ys us y h1 h2; simp [stageSum]
    | cons s ss ih =>
      intro ys us y h1 h2
      cases ys with
      | nil => simp at h2
      | cons x ys =>
        cases us with
        | nil => simp at h1
        | cons u us =>
          simp only [List.zipWith_cons_cons, List.map_cons, List.sum_cons, List.cons_append, stageSum]
          rw [← ih ys us y (by simpa using h1) (by simpa using h2)]
          have e : s.toL.cost x u = (1 / 2) * ((s.X *ᵥ (s.H *ᵥ x - s.r)) ⬝ᵥ (s.H *ᵥ x - s.r)) +
              (1 / 2) * ((s.U *ᵥ u) ⬝ᵥ u) := by
            have : s.toL.cost x u = (1 / 2) * ((s.H *ᵥ x - s.r) ⬝ᵥ s.X *ᵥ (s.H *ᵥ x - s.r)) +
              (1 / 2) * (((1 : Matrix (Fin m) (Fin m) K) *ᵥ u - 0) ⬝ᵥ s.U *ᵥ ((1 : Matrix (Fin m) (Fin m) K) *ᵥ u - 0)) +
              (s.H *ᵥ x - s.r) ⬝ᵥ (0 : Matrix (Fin p) (Fin m) K) *ᵥ ((1 : Matrix (Fin m) (Fin m) K) *ᵥ u - 0) := rfl
            rw [this]
            simp only [one_mulVec, sub_zero, zero_mulVec, dotProduct_zero, add_zero]
            rw [dotProduct_comm (s.X *ᵥ _), dotProduct_comm (s.U *ᵥ _)]
          rw [e]
          ring
  have := key P.stages xs.dropLast us (xs.getLast hne) hu (by simp [hx])
  rw [List.dropLast_append_getLast hne] at this
  exact this

/-! ### General form -/

section Ordered
variable [LinearOrder K] [IsStrictOrderedRing K]

theorem tfCholesky_ok {A f : Matrix (Fin n) (Fin n) K} (hA : Aᵀ = A) : tfCholesky A = .ok f ↔ IsPD A ∧ f = minv A := by
  rw [tfCholesky_eq hA, choFactor_ok hA]

theorem canon_ok {g : GStage n m p K} (hU : g.Uᵀ = g.U) {t : TStage n m p K} : g.canon = .ok t ↔ IsPD g.U ∧
    t = ⟨g.F - g.L * (minv g.U * (g.Mᵀ * g.H)), g.c + g.L *ᵥ (minv g.U *ᵥ (g.Mᵀ *ᵥ g.r) + g.s), g.L, g.H, g.r,
      g.X - g.M * (minv g.U * g.Mᵀ), g.U⟩ := by
  unfold GStage.canon
  rw [bind_ok]
  constructor
  · rintro ⟨f, hf, h⟩
    obtain ⟨h1, rfl⟩ := (tfCholesky_ok hU).1 hf
    simp only [pure, Except.pure, Except.ok.injEq] at h
    exact ⟨h1, h.symm⟩
  · rintro ⟨h1, rfl⟩
    exact ⟨_, (tfCholesky_ok hU).2 ⟨h1, rfl⟩, rfl⟩

theorem back_ok {g : GStage n m p K} (hU : g.Uᵀ = g.U) {Kx : Matrix (Fin m) (Fin n) K} {d : Fin m → K}
    {r : Matrix (Fin m) (Fin n) K × (Fin m → K)} : g.back Kx d = .ok r ↔ IsPD g.U ∧
    r = (Kx + minv g.U * g.Mᵀ * g.H, d + (minv g.U * g.Mᵀ) *ᵥ g.r + g.s) := by
  unfold GStage.back
  rw [bind_ok]
  constructor
  · rintro ⟨f, hf, h⟩
    obtain ⟨h1, rfl⟩ := (tfCholesky_ok hU).1 hf
    simp only [pure, Except.pure, Except.ok.injEq, choSolve, choSolveV, mulVec_mulVec, ← Matrix.mul_assoc] at h
    exact ⟨h1, h.symm⟩
  · rintro ⟨h1, rfl⟩
    refine ⟨_, (tfCholesky_ok hU).2 ⟨h1, rfl⟩, ?_⟩
    simp only [pure, Except.pure, choSolve, choSolveV, mulVec_mulVec, ← Matrix.mul_assoc]

theorem canon_transformed {g : GStage n m p K} (hU : g.Uᵀ = g.U) {t : TStage n m p K} (h : g.canon = .ok t) :
    g.toL.transformed = .ok t.toL := by
  obtain ⟨h1, rfl⟩ := (canon_ok hU).1 h
  rw [transformed_ok]
  refine ⟨h1.det_ne_zero, ?_⟩
  have e : g.toL.tr = ⟨p, g.F - g.L * minv g.U * g.Mᵀ * g.H, g.L, g.X - g.M * minv g.U * g.Mᵀ, g.U,
    g.c + (g.L * minv g.U * g.Mᵀ) *ᵥ g.r + g.L *ᵥ g.s, g.H, g.r, 1, 0, 0⟩ := rfl
  rw [e]
  simp only [TStage.toL, mulVec_add, mulVec_mulVec, Matrix.mul_assoc, add_assoc]

theorem back_list {ss : List (GStage n m p K)} (hU : ∀ s ∈ ss, s.Uᵀ = s.U) (hp : ∀ s ∈ ss, IsPD s.U)
    {Ks : List (Matrix (Fin m) (Fin n) K)} {ds : List (Fin m → K)} :
    (ss.zip (Ks.zip ds)).mapM (fun a => a.1.back a.2.1 a.2.2) = .ok (backGains (ss.map GStage.toL) Ks ds) := by
  rw [mapM_ok_iff]
  induction ss generalizing Ks ds with
  | nil => exact .nil
  | cons s ss ih =>
    cases Ks with
    | nil => exact .nil
    | cons Kx Ks =>
      cases ds with
      | nil => exact .nil
      | cons d ds =>
        refine .cons ?_ (ih (fun s h => hU s (by simp [h])) (fun s h => hp s (by simp [h])))
        exact (back_ok (hU s (by simp))).2 ⟨hp s (by simp), rfl⟩

theorem canon_sym_list {ss : List (GStage n m p K)} {cs} (hs : ∀ s ∈ ss, s.Xᵀ = s.X ∧ s.Uᵀ = s.U)
    (h : List.Forall₂ (fun (g : GStage n m p K) t => GStage.canon g = .ok t) ss cs) :
    ∀ t ∈ cs, t.Xᵀ = t.X ∧ t.Uᵀ = t.U := by
  induction h with
  | nil => simp
  | @cons s c ss cs h1 _ ih =>
    intro t ht
    rcases List.mem_cons.1 ht with rfl | ht
    · have hs' := hs s (by simp)
      obtain ⟨-, rfl⟩ := (canon_ok hs'.2).1 h1
      refine ⟨?_, hs'.2⟩
      simp only [transpose_sub, transpose_mul, transpose_transpose, minv_transpose, hs'.1, hs'.2, Matrix.mul_assoc]
    · exact ih (fun s h => hs s (by simp [h])) t ht

theorem canon_sym {P : TFGen n m p q K} (hP : P.Sym) {C : TFLQT n m p q K} (h : P.canon = .ok C) : C.Sym := by
  unfold TFGen.canon at h
  rw [bind_ok] at h
  obtain ⟨cs, h1, h5⟩ := h
  simp only [pure, Except.pure, Except.ok.injEq] at h5
  subst h5
  exact ⟨canon_sym_list hP.1 (mapM_ok_iff.1 h1), hP.2⟩

theorem canon_solve {P : TFGen n m p q K} (hP : P.Sym) {R : BwResult n m K} :
    (do let C ← P.canon
        let r ← C.seqBackward
        let gs ← P.back r.Kx_list r.d_list
        return (⟨gs.map Prod.fst, gs.map Prod.snd, r.S_list, r.v_list⟩ : BwResult n m K) : Py (BwResult n m K)) = .ok R ↔
      (∀ s ∈ P.stages, IsPD s.U) ∧ P.toLQT.seqBackwardPass = .ok R := by
  have hLs : ∀ s ∈ P.toLQT.stages, s.Sym := by
    intro s hs
    obtain ⟨t, ht, rfl⟩ := List.mem_map.1 hs
    exact hP.1 t ht
  have hZ : ∀ s ∈ P.toLQT.stages, s.Z = 1 := by
    intro s hs
    obtain ⟨t, ht, rfl⟩ := List.mem_map.1 hs
    rfl
  have h0 := term_symm P.toLQT hP.2
  have htr : ∀ {cs}, List.Forall₂ (fun g t => GStage.canon g = .ok t) P.stages cs →
      List.Forall₂ (fun s t => LStage.transformed s = .ok t) P.toLQT.stages (cs.map TStage.toL) := by
    intro cs h
    have : ∀ {ss cs}, (∀ s ∈ ss, s.Uᵀ = s.U) → List.Forall₂ (fun (g : GStage n m p K) t => GStage.canon g = .ok t) ss cs →
      List.Forall₂ (fun s t => LStage.transformed s = .ok t) (ss.map GStage.toL) (cs.map TStage.toL) := by
      intro ss cs hs h
      induction h with
      | nil => exact .nil
      | cons h1 _ ih => exact .cons (canon_transformed (hs _ (by simp)) h1) (ih fun s h => hs s (by simp [h]))
    exact this (fun s h => (hP.1 s h).2) h
  have hsymC : ∀ {cs}, List.Forall₂ (fun g t => GStage.canon g = .ok t) P.stages cs →
      (⟨cs, P.HT, P.rT, P.XT⟩ : TFLQT n m p q K).Sym := fun h => ⟨canon_sym_list hP.1 h, hP.2⟩
  constructor
  · intro h
    rw [bind_ok] at h
    obtain ⟨C, h1, h⟩ := h
    rw [bind_ok] at h
    obtain ⟨r, h2, h⟩ := h
    rw [bind_ok] at h
    obtain ⟨gs, h3, h4⟩ := h
    unfold TFGen.canon at h1
    rw [bind_ok] at h1
    obtain ⟨cs, h1, h5⟩ := h1
    simp only [pure, Except.pure, Except.ok.injEq] at h4 h5
    subst h5
    have hcs := mapM_ok_iff.1 h1
    have hpd : ∀ s ∈ P.stages, IsPD s.U := by
      intro s hs
      obtain ⟨t, ht⟩ := forall₂_left hcs hs
      exact ((canon_ok (hP.1 s hs).2).1 ht).1
    refine ⟨hpd, ?_⟩
    rw [tf_seq_bw (hsymC hcs), seqBackwardPass_iff] at h2
    obtain ⟨S, v, hb⟩ := h2
    have hb' := (transformed_bw h0 hLs hZ (htr hcs)).1 hb
    have h6 := back_list (fun s hs => (hP.1 s hs).2) hpd (Ks := r.Kx_list) (ds := r.d_list)
    unfold TFGen.back at h3
    rw [h6, Except.ok.injEq] at h3
    rw [seqBackwardPass_iff]
    refine ⟨S, v, ?_⟩
    rw [← h4, ← h3]
    exact hb'
  · rintro ⟨hpd, h⟩
    obtain ⟨cs, hcs, -⟩ := mapM_total (f := GStage.canon) (Q := fun _ => True) (l := P.stages)
      (fun s hs => ⟨_, (canon_ok (hP.1 s hs).2).2 ⟨hpd s hs, rfl⟩, trivial⟩)
    obtain ⟨S, v, hb⟩ := seqBackwardPass_iff.1 h
    obtain ⟨r, hr⟩ := (transformed_bw h0 hLs hZ (htr hcs)).2 hb
    have hb' := (transformed_bw h0 hLs hZ (htr hcs)).1 hr
    obtain ⟨-, -, rfl⟩ := hb.det hb'
    rw [bind_ok]
    refine ⟨⟨cs, P.HT, P.rT, P.XT⟩, ?_, ?_⟩
    · unfold TFGen.canon
      rw [mapM_ok_iff.2 hcs]
      rfl
    · rw [bind_ok]
      refine ⟨r, ?_, ?_⟩
      · rw [tf_seq_bw (hsymC hcs), seqBackwardPass_iff]
        exact ⟨S, v, hr⟩
      · rw [bind_ok]
        exact ⟨_, back_list (fun s hs => (hP.1 s hs).2) hpd, rfl⟩

omit [LinearOrder K] [IsStrictOrderedRing K] in
theorem fwdData_ok (P : TFLQT n m p q K) (r : BwResult n m K) (h1 : r.Kx_list.length = P.stages.length)
    (h2 : r.d_list.length = P.stages.length) :
    List.Forall₂ LStage.SameDyn P.toLQT.stages (P.fwdData r) ∧ (P.fwdData r).map TFwd.Kx = r.Kx_list ∧
      (P.fwdData r).map TFwd.d = r.d_list ∧ (P.stages ≠ [] → P.fwdData r ≠ []) := by
  obtain ⟨ss, HT, rT, XT⟩ := P
  obtain ⟨Ks, ds, Ss, vs⟩ := r
  simp only [TFLQT.toLQT, TFLQT.fwdData] at *
  induction ss generalizing Ks ds with
  | nil =>
    simp only [List.length_nil, List.length_eq_zero_iff] at h1 h2
    subst h1 h2
    simp
  | cons s ss ih =>
    cases Ks with
    | nil => simp at h1
    | cons Kx Ks =>
      cases ds with
      | nil => simp at h2
      | cons d ds =>
        obtain ⟨a, b, c, -⟩ := ih Ks ds (by simpa using h1) (by simpa using h2)
        exact ⟨.cons ⟨rfl, rfl, rfl⟩ a, by simpa using b, by simpa using c, by simp⟩

end Ordered

end Verif
