import Verif.Proof.LQT
import Verif.Proof.ScanTotal

/-! Parallel passes of the tracking problem. -/

namespace Verif

open Matrix

variable {n m : ℕ} {K : Type} [Field K]

section Ordered
variable [LinearOrder K] [IsStrictOrderedRing K]

/-! ### Convex problems -/

theorem pd_conj {Z U : Matrix (Fin m) (Fin m) K} (hZ : Z.det ≠ 0) (hU : IsPD U) : IsPD (Zᵀ * U * Z) := by
  intro x hx
  have e : x ⬝ᵥ (Zᵀ * U * Z) *ᵥ x = (Z *ᵥ x) ⬝ᵥ U *ᵥ (Z *ᵥ x) := by
    rw [← mulVec_mulVec, ← mulVec_mulVec, dot_symm, transpose_transpose, dotProduct_comm]
  rw [e]
  apply hU
  intro h
  exact hx (mulVec_inj_of_det hZ (by rw [h, mulVec_zero]))

omit [IsStrictOrderedRing K] in
theorem psd_conj {p : ℕ} {H : Matrix (Fin p) (Fin n) K} {X : Matrix (Fin p) (Fin p) K} (hX : IsPSD X) :
    IsPSD (Hᵀ * X * H) := by
  refine ⟨by simp only [transpose_mul, transpose_transpose, hX.1, Matrix.mul_assoc], fun x => ?_⟩
  have e : x ⬝ᵥ (Hᵀ * X * H) *ᵥ x = (H *ᵥ x) ⬝ᵥ X *ᵥ (H *ᵥ x) := by
    rw [← mulVec_mulVec, ← mulVec_mulVec, dot_symm, transpose_transpose, dotProduct_comm]
  rw [e]
  exact hX.2 _

theorem parElem_convex {s : LStage n m K} (hs : s.Convex) : ∃ e, s.parElem = .ok e ∧ e.PSD := by
  have hW := pd_conj hs.det hs.pd
  have hUZ : (s.U * s.Z).det ≠ 0 := by rw [det_mul]; exact mul_ne_zero hs.pd.det_ne_zero hs.det
  obtain ⟨e, he⟩ : ∃ e, s.parElem = .ok e := by
    refine ⟨_, (parElem_ok hs.sym).2 ⟨minv (s.U * s.Z), minv s.Z, minv s.Z *ᵥ s.s, minv (s.Zᵀ * s.U * s.Z) * s.Lᵀ,
      minv s.U * s.Mᵀ, mul_minv hUZ, minv_mul hUZ, mul_minv hs.det, ?_, hW, ?_, hs.pd.det_ne_zero, ?_, rfl⟩⟩
    · rw [mulVec_mulVec, mul_minv hs.det, one_mulVec]
    · rw [← Matrix.mul_assoc, mul_minv hW.det_ne_zero, Matrix.one_mul]
    · rw [← Matrix.mul_assoc, mul_minv hs.pd.det_ne_zero, Matrix.one_mul]
  refine ⟨e, he, ?_⟩
  have hsym := (parElem_rel hs.sym he).1
  obtain ⟨P, G, z, W, N, hP, hP', hG, hz, hpd, hW, hU, hN, rfl⟩ := (parElem_ok hs.sym).1 he
  refine ⟨⟨hsym.1, fun x => ?_⟩, hsym.2, fun x => ?_⟩
  · have e : x ⬝ᵥ (s.L * W) *ᵥ x = (W *ᵥ x) ⬝ᵥ (s.Zᵀ * s.U * s.Z) *ᵥ (W *ᵥ x) := by
      rw [mulVec_mulVec x (s.Zᵀ * s.U * s.Z), hW, ← mulVec_mulVec, dot_symm]
    simp only [e]
    exact hpd.nonneg _
  · have e : x ⬝ᵥ (s.Hᵀ * (s.X - s.M * N) * s.H) *ᵥ x = (s.H *ᵥ x) ⬝ᵥ (s.X - s.M * N) *ᵥ (s.H *ᵥ x) := by
      rw [← mulVec_mulVec, ← mulVec_mulVec, dot_symm, transpose_transpose, dotProduct_comm]
    simp only [e]
    have hj := hs.joint (s.H *ᵥ x) (-(N *ᵥ (s.H *ᵥ x)))
    set y := s.H *ᵥ x
    have e2 : (N *ᵥ y) ⬝ᵥ s.U *ᵥ (N *ᵥ y) = y ⬝ᵥ s.M *ᵥ (N *ᵥ y) := by
      rw [mulVec_mulVec y s.U, hN, dot_symm, transpose_transpose]
    rw [mulVec_neg, mulVec_neg, neg_dotProduct, dotProduct_neg, dotProduct_neg, neg_neg, e2] at hj
    rw [sub_mulVec, dotProduct_sub, ← mulVec_mulVec]
    linarith

theorem gains_convex {s : LStage n m K} (hs : s.Convex) {S : Matrix (Fin n) (Fin n) K} (hS : IsPSD S) (v : Fin n → K) :
    ∃ Kx d, s.gains S v = .ok (Kx, d) := by
  have hh : IsPD (s.hess S) := by
    intro x hx
    have h1 := pd_conj hs.det hs.pd x hx
    have h2 := (psd_conj (H := s.L) hS).2 x
    rw [LStage.hess, add_mulVec, dotProduct_add]
    linarith
  refine ⟨minv (s.hess S) * (s.Zᵀ * s.Mᵀ * s.H + s.Lᵀ * S * s.F), minv (s.hess S) *ᵥ ((s.Zᵀ * s.U) *ᵥ s.s +
    (s.Zᵀ * s.Mᵀ) *ᵥ s.r - (s.Lᵀ * S) *ᵥ s.c + s.Lᵀ *ᵥ v), (gains_ok hs.sym hS.1).2 ⟨hh, ?_, ?_⟩⟩
  · rw [← Matrix.mul_assoc, mul_minv hh.det_ne_zero, Matrix.one_mul]
  · rw [mulVec_mulVec, mul_minv hh.det_ne_zero, one_mulVec]

omit [IsStrictOrderedRing K] in
theorem elem_psd_of {S : Matrix (Fin n) (Fin n) K} (hS : IsPSD S) (v : Fin n → K) :
    (⟨0, 0, 0, v, S⟩ : Elem n K).PSD := ⟨⟨by simp, by simp⟩, hS⟩

theorem riccati_psd {s : LStage n m K} (hs : s.Convex) {S : Matrix (Fin n) (Fin n) K} (hS : IsPSD S) {v : Fin n → K}
    {Kx : Matrix (Fin m) (Fin n) K} {d : Fin m → K} (hg : s.gains S v = .ok (Kx, d)) : IsPSD (s.riccati Kx S v).1 := by
  obtain ⟨e, he, hp⟩ := parElem_convex hs
  exact (combine_psd (combine_riccati hs.sym (parElem_rel hs.sym he) hS.1 hg) hp (elem_psd_of hS v)).2

theorem bw_convex {S0 : Matrix (Fin n) (Fin n) K} (h0 : IsPSD S0) (v0 : Fin n → K) (ss : List (LStage n m K))
    (hs : ∀ s ∈ ss, s.Convex) : ∃ S v r, BwOk S0 v0 ss S v r ∧ IsPSD S ∧ ∀ T ∈ r.S_list, IsPSD T := by
  induction ss with
  | nil => exact ⟨_, _, _, BwOk.nil, h0, by simpa using h0⟩
  | cons s ss ih =>
    obtain ⟨S, v, r, hb, hS, hr⟩ := ih fun s hs' => hs s (by simp [hs'])
    obtain ⟨Kx, d, hg⟩ := gains_convex (hs s (by simp)) hS v
    have := riccati_psd (hs s (by simp)) hS hg
    refine ⟨_, _, _, BwOk.cons hb hg, this, ?_⟩
    intro T hT
    rcases List.mem_cons.1 hT with rfl | hT
    · exact this
    · exact hr T hT

/-! ### Parallel backward pass -/

theorem isElem_sym {ss : List (LStage n m K)} {es : List (Elem n K)} (h : List.Forall₂ LStage.IsElem ss es) :
    ∀ e ∈ es, e.Sym := by
  induction h with
  | nil => simp
  | cons h1 h2 ih =>
    intro e he
    rcases List.mem_cons.1 he with rfl | he
    · exact h1.1
    · exact ih e he

theorem bw_of_elems {S0 : Matrix (Fin n) (Fin n) K} {v0 : Fin n → K} (h0 : S0ᵀ = S0) {ss : List (LStage n m K)}
    {es : List (Elem n K)} (h : List.Forall₂ LStage.IsElem ss es) (hs : ∀ s ∈ ss, s.Sym) :
    ∀ {elems : List (Elem n K)} {gs : List (Matrix (Fin m) (Fin n) K × (Fin m → K))},
      elems.length = ss.length + 1 →
      (∀ k ≤ ss.length, ∃ w, elems[k]? = some w ∧ Paren combineABCEJ ((es ++ [(⟨0, 0, 0, v0, S0⟩ : Elem n K)]).drop k) w) →
      gs.length = ss.length →
      (∀ k < ss.length, ∃ s e g, ss[k]? = some s ∧ elems[k + 1]? = some e ∧ s.gains e.J e.eta = .ok g ∧
        gs[k]? = some g) →
      ∃ S v, elems[0]? = some ⟨0, 0, 0, v, S⟩ ∧
        BwOk S0 v0 ss S v ⟨gs.map Prod.fst, gs.map Prod.snd, elems.map Elem.J, elems.map Elem.eta⟩ ∧
        Paren combineABCEJ (es ++ [⟨0, 0, 0, v0, S0⟩]) ⟨0, 0, 0, v, S⟩ := by
  induction h with
  | nil =>
    intro elems gs hl hp hgl hg
    obtain ⟨w, hw, hpw⟩ := hp 0 (by simp)
    have h1 : Paren combineABCEJ ([] ++ [(⟨0, 0, 0, v0, S0⟩ : Elem n K)]) ⟨0, 0, 0, v0, S0⟩ := Paren.single _
    have hw' : w = ⟨0, 0, 0, v0, S0⟩ :=
      paren_unique hpw h1 (by simp [Elem.Sym, h0])
    subst hw'
    cases gs with
    | cons _ _ => simp at hgl
    | nil =>
      cases elems with
      | nil => simp at hl
      | cons a l =>
        have : l = [] := by simpa using hl
        subst this
        simp only [List.getElem?_cons_zero, Option.some.injEq] at hw
        subst hw
        exact ⟨S0, v0, rfl, BwOk.nil, h1⟩
  | @cons s e ss es he hes ih =>
    intro elems gs hl hp hgl hg
    cases elems with
    | nil => simp at hl
    | cons w elems =>
      cases gs with
      | nil => simp at hgl
      | cons g gs =>
        obtain ⟨S, v, hS, hb, hpar⟩ := ih (fun s hs' => hs s (by simp [hs'])) (elems := elems) (gs := gs)
          (by simpa using hl) (fun k hk => by simpa using hp (k + 1) (by simpa using hk)) (by simpa using hgl)
          (fun k hk => by simpa using hg (k + 1) (by simpa using hk))
        obtain ⟨s', e', g', h1, h2, h3, h4⟩ := hg 0 (by simp)
        simp only [List.getElem?_cons_zero, Option.some.injEq] at h1 h4
        subst h1 h4
        rw [List.getElem?_cons_succ, hS, Option.some.injEq] at h2
        subst h2
        simp only at h3
        obtain ⟨Kx, d⟩ := g
        have hSs := hb.symm h0 fun s hs' => hs s (by simp [hs'])
        have hc := combine_riccati (hs s (by simp)) he hSs h3
        have hpar' : Paren combineABCEJ ((e :: es) ++ [⟨0, 0, 0, v0, S0⟩])
            ⟨0, 0, 0, (s.riccati Kx S v).2, (s.riccati Kx S v).1⟩ :=
          Paren.node (l := [e]) (Paren.single e) hpar hc
        obtain ⟨w', hw', hpw⟩ := hp 0 (by simp)
        simp only [List.getElem?_cons_zero, Option.some.injEq] at hw'
        subst hw'
        have hw := paren_unique hpw hpar' (by
          intro x hx
          simp only [List.drop_zero] at hx
          rcases List.mem_append.1 hx with hx | hx
          · exact isElem_sym (List.Forall₂.cons he hes) x hx
          · simp only [List.mem_singleton] at hx; subst hx; simp [Elem.Sym, h0])
        subst hw
        exact ⟨_, _, rfl, BwOk.cons hb h3, hpar'⟩

omit [IsStrictOrderedRing K] in
theorem parBackwardInit_ok {P : LQT n m K} {es : List (Elem n K)} : P.parBackwardInit = .ok es ↔
    P.stages ≠ [] ∧ ∃ l, List.Forall₂ (fun s e => LStage.parElem s = .ok e) P.stages l ∧ es = l ++ [P.termElem] := by
  unfold LQT.parBackwardInit
  rw [bind_ok]
  simp only [mapM_ok_iff]
  cases hP : P.stages with
  | nil =>
    simp only [List.isEmpty_nil, if_true, ne_eq, not_true_eq_false, false_and, iff_false]
    rintro ⟨l, -, h⟩
    cases h
  | cons s ss =>
    simp only [List.isEmpty_cons, ne_eq, reduceCtorEq, not_false_eq_true, true_and]
    constructor
    · rintro ⟨l, h1, h2⟩
      refine ⟨l, h1, ?_⟩
      simp only [Bool.false_eq_true, if_false, pure, Except.pure, bind, Except.bind, Except.ok.injEq] at h2
      exact h2.symm
    · rintro ⟨l, h1, rfl⟩
      exact ⟨l, h1, rfl⟩

omit [IsStrictOrderedRing K] in
theorem parBackwardExtract_ok {P : LQT n m K} {elems : List (Elem n K)} {r : BwResult n m K} :
    P.parBackwardExtract elems = .ok r ↔ ∃ gs : List (Matrix (Fin m) (Fin n) K × (Fin m → K)),
      elems ≠ [] ∧ gs.length = elems.length - 1 ∧
      (∀ k < elems.length - 1, ∃ s e g, P.stages[k]? = some s ∧ elems[k + 1]? = some e ∧ s.gains e.J e.eta = .ok g ∧
        gs[k]? = some g) ∧ r = ⟨gs.map Prod.fst, gs.map Prod.snd, elems.map Elem.J, elems.map Elem.eta⟩ := by
  unfold LQT.parBackwardExtract
  rw [bind_ok]
  cases elems with
  | nil => 
    simp only [ne_eq, not_true_eq_false, false_and, exists_false, iff_false]
    rintro ⟨e, h, -⟩
    cases h
  | cons e0 elems =>
    simp only [List.length_cons, Nat.add_sub_cancel, ne_eq, reduceCtorEq, not_false_eq_true, true_and]
    constructor
    · rintro ⟨e, h1, h2⟩
      rw [pyGet_ok] at h1
      simp only [List.getElem?_cons_zero, Option.some.injEq] at h1
      subst h1
      rw [bind_ok] at h2
      obtain ⟨rs, h3, h4⟩ := h2
      rw [mapM_range_ok] at h3
      obtain ⟨hl, h3⟩ := h3
      have key : ∀ k < elems.length, ∃ s e g, P.stages[k]? = some s ∧ elems[k]? = some e ∧
          s.gains e.J e.eta = .ok g ∧ rs[k]? = some (g, e) := by
        intro k hk
        obtain ⟨b, hb, hf⟩ := h3 k hk
        rw [bind_ok] at hf
        obtain ⟨e, he, hf⟩ := hf
        rw [bind_ok] at hf
        obtain ⟨s, hs, hf⟩ := hf
        rw [bind_ok] at hf
        obtain ⟨g, hg, hf⟩ := hf
        rw [pyGet_ok] at he hs
        simp only [pure, Except.pure, Except.ok.injEq] at hf
        subst hf
        exact ⟨s, e, g, hs, by simpa using he, hg, hb⟩
      refine ⟨rs.map Prod.fst, by simpa using hl, ?_, ?_⟩
      · intro k hk
        obtain ⟨s, e, g, h5, h6, h7, h8⟩ := key k hk
        exact ⟨s, e, g, h5, by simpa using h6, h7, by simp [h8]⟩
      · simp only [pure, Except.pure, Except.ok.injEq] at h4
        subst h4
        have : elems = rs.map Prod.snd := by
          apply list_ext_of rfl (by simpa using hl)
          intro k hk
          obtain ⟨s, e, g, h5, h6, h7, h8⟩ := key k hk
          simp [h6, h8]
        simp only [List.map_map, List.map_cons, this]
        rfl
    · rintro ⟨gs, hl, hg, rfl⟩
      refine ⟨e0, rfl, ?_⟩
      rw [bind_ok]
      refine ⟨gs.zip elems, ?_, ?_⟩
      · rw [mapM_range_ok]
        refine ⟨by simp [hl], fun k hk => ?_⟩
        obtain ⟨s, e, g, h5, h6, h7, h8⟩ := hg k hk
        rw [List.getElem?_cons_succ] at h6
        refine ⟨(g, e), by rw [List.getElem?_zip_eq_some]; exact ⟨h8, h6⟩, ?_⟩
        rw [bind_ok]
        refine ⟨e, by rw [pyGet_ok]; simpa using h6, ?_⟩
        rw [bind_ok]
        refine ⟨s, by rw [pyGet_ok]; exact h5, ?_⟩
        rw [bind_ok]
        exact ⟨g, h7, rfl⟩
      · have e1 : (gs.zip elems).map Prod.fst = gs := List.map_fst_zip (by omega)
        have e2 : (gs.zip elems).map Prod.snd = elems := List.map_snd_zip (by omega)
        simp only [pure, Except.pure, Except.ok.injEq]
        have f1 : ∀ l : List ((Matrix (Fin m) (Fin n) K × (Fin m → K)) × Elem n K),
          l.map (fun r => r.1.1) = (l.map Prod.fst).map Prod.fst := by intro l; rw [List.map_map]; rfl
        have f2 : ∀ l : List ((Matrix (Fin m) (Fin n) K × (Fin m → K)) × Elem n K),
          l.map (fun r => r.1.2) = (l.map Prod.fst).map Prod.snd := by intro l; rw [List.map_map]; rfl
        have f3 : ∀ l : List ((Matrix (Fin m) (Fin n) K × (Fin m → K)) × Elem n K),
          l.map (fun r => r.2.J) = (l.map Prod.snd).map Elem.J := by intro l; rw [List.map_map]; rfl
        have f4 : ∀ l : List ((Matrix (Fin m) (Fin n) K × (Fin m → K)) × Elem n K),
          l.map (fun r => r.2.eta) = (l.map Prod.snd).map Elem.eta := by intro l; rw [List.map_map]; rfl
        rw [f1, f2, f3, f4, e1, e2]
        rfl

/-- Elements of all suffixes and gains computed from them give the sequential result. -/
theorem bw_of_suffix {P : LQT n m K} (hP : P.Sym) {es elems : List (Elem n K)}
    (hes : List.Forall₂ LStage.IsElem P.stages es)
    (hl : elems.length = P.stages.length + 1)
    (hp : ∀ k ≤ P.stages.length, ∃ w, elems[k]? = some w ∧ Paren combineABCEJ ((es ++ [P.termElem]).drop k) w)
    {r : BwResult n m K} (hx : P.parBackwardExtract elems = .ok r) : P.seqBackwardPass = .ok r := by
  obtain ⟨gs, -, hgl, hg, rfl⟩ := parBackwardExtract_ok.1 hx
  rw [hl, Nat.add_sub_cancel] at hgl hg
  obtain ⟨S, v, -, hb, -⟩ := bw_of_elems (term_symm P hP.2) hes hP.1 hl hp hgl hg
  exact seqBackwardPass_iff.2 ⟨S, v, hb⟩

theorem par_bw_seq {P : LQT n m K} (hP : P.Sym) {r : BwResult n m K} (h : P.parBackwardPass = .ok r) :
    P.seqBackwardPass = .ok r := by
  unfold LQT.parBackwardPass at h
  rw [bind_ok] at h
  obtain ⟨el, hi, h⟩ := h
  obtain ⟨hne, es, hes, rfl⟩ := parBackwardInit_ok.1 hi
  rw [bind_ok] at h
  obtain ⟨elems, hsc, hx⟩ := h
  obtain ⟨hl, hp⟩ := scanVals_suffix hsc
  have hl' := hes.length_eq
  rw [List.length_append, List.length_singleton, ← hl'] at hl hp
  exact bw_of_suffix hP (isElem_forall hP.1 hes) hl (fun k hk => hp k (by omega)) hx

theorem mapM_total {α β : Type*} {f : α → Py β} {Q : β → Prop} {l : List α} (h : ∀ a ∈ l, ∃ b, f a = .ok b ∧ Q b) :
    ∃ r, List.Forall₂ (fun a b => f a = .ok b) l r ∧ ∀ b ∈ r, Q b := by
  induction l with
  | nil => exact ⟨[], .nil, by simp⟩
  | cons a l ih =>
    obtain ⟨b, hb, hq⟩ := h a (by simp)
    obtain ⟨r, hr, hqr⟩ := ih fun a ha => h a (by simp [ha])
    exact ⟨b :: r, .cons hb hr, by simpa using ⟨hq, hqr⟩⟩

theorem term_psd {P : LQT n m K} (hP : P.Convex) : P.termElem.PSD := elem_psd_of (psd_conj hP.2) _

theorem stage_elems {P : LQT n m K} (hP : P.Convex) : ∃ es,
    List.Forall₂ (fun s e => LStage.parElem s = .ok e) P.stages es ∧ ∀ e ∈ es, e.PSD :=
  mapM_total fun s hs => parElem_convex (hP.1 s hs)

/-- For semidefinite elements of suffixes the extraction is defined. -/
theorem extract_total {P : LQT n m K} (hP : P.Convex) {elems : List (Elem n K)}
    (hl : elems.length = P.stages.length + 1) (hp : ∀ e ∈ elems, e.PSD) : ∃ r, P.parBackwardExtract elems = .ok r := by
  have key : ∀ k < P.stages.length, ∃ g, ∃ s e, P.stages[k]? = some s ∧ elems[k + 1]? = some e ∧
      s.gains e.J e.eta = .ok g := by
    intro k hk
    have hk' : k + 1 < elems.length := by omega
    obtain ⟨Kx, d, hg⟩ := gains_convex (hP.1 P.stages[k] (List.getElem_mem hk)) (hp elems[k + 1] (List.getElem_mem hk')).2
      elems[k + 1].eta
    exact ⟨(Kx, d), P.stages[k], elems[k + 1], List.getElem?_eq_getElem hk, List.getElem?_eq_getElem hk', hg⟩
  choose g hg using key
  refine ⟨_, parBackwardExtract_ok.2 ⟨List.ofFn (fun k : Fin P.stages.length => g k.1 k.2), ?_, by simp [hl], ?_, rfl⟩⟩
  · intro h; simp [h] at hl
  · intro k hk
    rw [hl, Nat.add_sub_cancel] at hk
    obtain ⟨s, e, h1, h2, h3⟩ := hg k hk
    exact ⟨s, e, g k hk, h1, h2, h3, by simp [List.getElem?_ofFn, hk]⟩

theorem par_bw_total {P : LQT n m K} (hP : P.Convex) (hne : P.stages ≠ []) : ∃ r, P.parBackwardPass = .ok r := by
  obtain ⟨es, hes, hpsd⟩ := stage_elems hP
  have hi := parBackwardInit_ok.2 ⟨hne, es, hes, rfl⟩
  have hall : ∀ e ∈ es ++ [P.termElem], e.PSD := by
    intro e he
    rcases List.mem_append.1 he with he | he
    · exact hpsd e he
    · simp only [List.mem_singleton] at he; subst he; exact term_psd hP
  obtain ⟨elems, hsc⟩ := scanVals_total psd_closed (a := es ++ [P.termElem]) (by simp) hall true
  obtain ⟨hl, hp⟩ := scanVals_suffix hsc
  obtain ⟨r, hr⟩ := extract_total hP (elems := elems) (by simpa [hes.length_eq] using hl) (by
    intro e he
    obtain ⟨k, hk, rfl⟩ := List.mem_iff_getElem.1 he
    obtain ⟨v, hv, hpv⟩ := hp k (by omega)
    rw [List.getElem?_eq_getElem hk, Option.some.injEq] at hv
    subst hv
    exact hpv.prop (fun x y z hx hy hz => combine_psd hz hx hy) (fun x hx => hall x (List.mem_of_mem_drop hx)))
  exact ⟨r, by unfold LQT.parBackwardPass; rw [hi]; show (do let el ← scanVals combineABCEJ (es ++ [P.termElem]) true; P.parBackwardExtract el) = _; rw [hsc]; exact hr⟩

omit [IsStrictOrderedRing K] in
theorem par_bw_nil {P : LQT n m K} (h : P.stages = []) : P.parBackwardPass = .error .indexError := by
  unfold LQT.parBackwardPass LQT.parBackwardInit
  rw [h]
  rfl

end Ordered

end Verif
