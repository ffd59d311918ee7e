import Verif.Spec.LQR
import Verif.Proof.LQTFwd

/-! The regulator passes are those of the tracking problem. -/

namespace Verif

open Matrix

variable {n m : ℕ} {K : Type} [Field K]

section Ordered
variable [LinearOrder K]

theorem lqr_gains (R : LQR n m K) (S : Matrix (Fin n) (Fin n) K) :
    R.stage.gains S 0 = (R.gain S).map fun Kx => (Kx, 0) := by
  have h : R.stage.gains S 0 = (do
      let cf ← choFactor ((1 : Matrix (Fin m) (Fin m) K)ᵀ * R.U * 1 + R.Lᵀ * S * R.L)
      let Kx := choSolve cf ((1 : Matrix (Fin m) (Fin m) K)ᵀ * (0 : Matrix (Fin n) (Fin m) K)ᵀ *
        (1 : Matrix (Fin n) (Fin n) K) + R.Lᵀ * S * R.F)
      let d := choSolveV cf (((1 : Matrix (Fin m) (Fin m) K)ᵀ * R.U) *ᵥ 0 +
        ((1 : Matrix (Fin m) (Fin m) K)ᵀ * (0 : Matrix (Fin n) (Fin m) K)ᵀ) *ᵥ 0 - (R.Lᵀ * S) *ᵥ 0 + R.Lᵀ *ᵥ 0)
      return (Kx, d)) := rfl
  rw [h]
  unfold LQR.gain solvePos
  simp only [transpose_one, Matrix.one_mul, Matrix.mul_one, transpose_zero, Matrix.zero_mul,
    zero_add, mulVec_zero, sub_zero, add_zero, choSolveV]
  cases choFactor (R.U + R.Lᵀ * S * R.L) <;> rfl

theorem lqr_riccati (R : LQR n m K) (S : Matrix (Fin n) (Fin n) K) (Kx : Matrix (Fin m) (Fin n) K) :
    R.stage.riccati Kx S 0 = (R.update S Kx, 0) := by
  have h : R.stage.riccati Kx S 0 = ((1 : Matrix (Fin n) (Fin n) K)ᵀ * R.X * 1 -
      (1 : Matrix (Fin n) (Fin n) K)ᵀ * (0 : Matrix (Fin n) (Fin m) K) * (1 : Matrix (Fin m) (Fin m) K) * Kx +
        R.Fᵀ * S * (R.F - R.L * Kx),
      ((1 : Matrix (Fin n) (Fin n) K)ᵀ * R.X) *ᵥ 0 - (Kxᵀ * (1 : Matrix (Fin m) (Fin m) K)ᵀ * R.U) *ᵥ 0 +
        ((1 : Matrix (Fin n) (Fin n) K)ᵀ * (0 : Matrix (Fin n) (Fin m) K)) *ᵥ 0 -
        (Kxᵀ * (1 : Matrix (Fin m) (Fin m) K)ᵀ * (0 : Matrix (Fin n) (Fin m) K)ᵀ) *ᵥ 0 +
        (R.F - R.L * Kx)ᵀ *ᵥ (0 - S *ᵥ 0)) := rfl
  rw [h]
  unfold LQR.update
  simp only [transpose_one, Matrix.one_mul, Matrix.mul_one, Matrix.zero_mul,
    mulVec_zero, sub_zero, add_zero]
  rw [add_comm]

theorem lqr_bwLoop (R : LQR n m K) (T : ℕ) (S : Matrix (Fin n) (Fin n) K) (Ks : List (Matrix (Fin m) (Fin n) K))
    (Ss : List (Matrix (Fin n) (Fin n) K)) (ds : List (Fin m → K)) (vs : List (Fin n → K)) :
    ((List.replicate T R.stage).foldlM bwStep ⟨S, 0, Ks, ds, Ss, vs⟩).map
      (fun st => (⟨st.Kx_list, st.d_list, st.S_list, st.v_list⟩ : BwResult n m K)) =
    (R.bwLoop T S Ks Ss).map fun r => ⟨r.1, ds ++ List.replicate T 0, r.2, vs ++ List.replicate T 0⟩ := by
  induction T generalizing S Ks Ss ds vs with
  | zero => simp [LQR.bwLoop, Except.map, pure, Except.pure]
  | succ T ih =>
    rw [List.replicate_succ, List.foldlM_cons]
    unfold bwStep LQR.bwLoop
    simp only [lqr_gains]
    cases h : R.gain S with
    | error e => rfl
    | ok Kx =>
      simp only [Except.map, lqr_riccati]
      have := ih (R.update S Kx) (Ks ++ [Kx]) (Ss ++ [R.update S Kx]) (ds ++ [0]) (vs ++ [0])
      simp only [List.append_assoc, List.singleton_append, ← List.replicate_succ] at this
      exact this

theorem lqr_seq_bw (R : LQR n m K) (T : ℕ) : (R.toLQT T).seqBackwardPass =
    (R.seqBackwardPass T).map fun r => ⟨r.1, List.replicate T 0, r.2, List.replicate (T + 1) 0⟩ := by
  have h := lqr_bwLoop R T R.XT [] [R.XT] [] [0]
  have h0 : (R.toLQT T).seqBackwardPass = (do
      let st ← (List.replicate T R.stage).reverse.foldlM bwStep
        { S := (1 : Matrix (Fin n) (Fin n) K)ᵀ * R.XT * 1, v := ((1 : Matrix (Fin n) (Fin n) K)ᵀ * R.XT) *ᵥ 0,
          Kx_list := [], d_list := [], S_list := [(1 : Matrix (Fin n) (Fin n) K)ᵀ * R.XT * 1],
          v_list := [((1 : Matrix (Fin n) (Fin n) K)ᵀ * R.XT) *ᵥ 0] }
      return ⟨st.Kx_list.reverse, st.d_list.reverse, st.S_list.reverse, st.v_list.reverse⟩) := rfl
  rw [h0]
  unfold LQR.seqBackwardPass
  simp only [List.reverse_replicate, transpose_one, Matrix.one_mul, Matrix.mul_one, mulVec_zero]
  cases h1 : (List.replicate T R.stage).foldlM bwStep ⟨R.XT, 0, [], [], [R.XT], [0]⟩ with
  | error e =>
    rw [h1] at h
    cases h2 : R.bwLoop T R.XT [] [R.XT] with
    | error e' => rw [h2] at h; simp only [Except.map, Except.error.injEq] at h; rw [← h]; rfl
    | ok r => rw [h2] at h; cases h
  | ok st =>
    rw [h1] at h
    cases h2 : R.bwLoop T R.XT [] [R.XT] with
    | error e' => rw [h2] at h; cases h
    | ok r =>
      rw [h2] at h
      simp only [Except.map, Except.ok.injEq, BwResult.mk.injEq, List.nil_append] at h
      obtain ⟨a1, a2, a3, a4⟩ := h
      show (.ok _ : Py _) = .ok _
      rw [a1, a2, a3, a4]
      simp only [List.reverse_replicate, List.singleton_append, ← List.replicate_succ]

theorem lqr_seq_bw_iff (R : LQR n m K) (T : ℕ) (r : List (Matrix (Fin m) (Fin n) K) × List (Matrix (Fin n) (Fin n) K)) :
    R.seqBackwardPass T = .ok r ↔
      (R.toLQT T).seqBackwardPass = .ok ⟨r.1, List.replicate T 0, r.2, List.replicate (T + 1) 0⟩ := by
  rw [lqr_seq_bw]
  cases R.seqBackwardPass T with
  | error e => simp [Except.map]
  | ok q =>
    simp only [Except.map, Except.ok.injEq, BwResult.mk.injEq, true_and, and_true]
    exact Prod.ext_iff

theorem lqr_sym {R : LQR n m K} (h : R.Sym) (T : ℕ) : (R.toLQT T).Sym :=
  ⟨fun s hs => by rw [List.eq_of_mem_replicate hs]; exact ⟨h.1, h.2.1⟩, h.2.2⟩

end Ordered

/-! ### Forward passes -/

theorem lqr_fwLoop (R : LQR n m K) (Ks : List (Matrix (Fin m) (Fin n) K)) (x : Fin n → K) :
    lqtForwardLoop (List.replicate Ks.length R.stage) Ks (List.replicate Ks.length 0) x = .ok (R.fwLoop Ks x) := by
  induction Ks generalizing x with
  | nil => rfl
  | cons Kx Ks ih =>
    simp only [List.length_cons, List.replicate_succ, lqtForwardLoop, LQR.fwLoop, add_zero]
    have e : R.stage.F *ᵥ x + R.stage.c + R.stage.L *ᵥ (-Kx *ᵥ x) = R.F *ᵥ x + R.L *ᵥ (-Kx *ᵥ x) := by
      simp [LQR.stage]
    rw [e, ih]
    rfl

theorem lqr_seq_fw (R : LQR n m K) (x0 : Fin n → K) (Ks : List (Matrix (Fin m) (Fin n) K)) :
    (R.toLQT Ks.length).seqForwardPass x0 Ks (List.replicate Ks.length 0) = .ok (R.seqForwardPass x0 Ks) := by
  unfold LQT.seqForwardPass LQR.toLQT
  rw [lqr_fwLoop]
  rfl

theorem mapM_congr' {α β : Type} {f g : α → Py β} {l : List α} (h : ∀ a ∈ l, f a = g a) : l.mapM f = l.mapM g := by
  induction l with
  | nil => rfl
  | cons a l ih =>
    rw [List.mapM_cons, List.mapM_cons, h a (by simp), ih fun a ha => h a (by simp [ha])]

theorem pyGet_replicate {α : Type} {k T : ℕ} (h : k < T) (a : α) : pyGet (List.replicate T a) k = .ok a := by
  rw [pyGet_ok]
  simp [h]

theorem lqr_par_fw (R : LQR n m K) (x0 : Fin n → K) (Ks : List (Matrix (Fin m) (Fin n) K)) :
    R.parForwardPass x0 Ks = (R.toLQT Ks.length).parForwardPass x0 Ks (List.replicate Ks.length 0) := by
  have h1 : R.parForwardInit x0 Ks = (R.toLQT Ks.length).parForwardInit x0 Ks (List.replicate Ks.length 0) := by
    unfold LQR.parForwardInit LQT.parForwardInit
    refine mapM_congr' fun k hk => ?_
    have hk := List.mem_range.1 hk
    have e1 : pyGet (R.toLQT Ks.length).stages k = .ok R.stage := pyGet_replicate hk _
    rw [e1, pyGet_replicate hk]
    cases pyGet Ks k with
    | error e => rfl
    | ok Kx =>
      show (if k = 0 then _ else _ : Py _) = (if k = 0 then _ else _)
      simp [LQR.stage]
  have h2 : ∀ elems, LQR.parForwardExtract x0 Ks elems =
      LQT.parForwardExtract x0 Ks (List.replicate Ks.length 0) elems := by
    intro elems
    unfold LQR.parForwardExtract LQT.parForwardExtract
    congr 1
    refine mapM_congr' fun k hk => ?_
    have hk := List.mem_range.1 hk
    rw [pyGet_replicate hk]
    cases pyGet Ks k with
    | error e => rfl
    | ok Kx =>
      have e : ∀ y : Fin n → K, -Kx *ᵥ y + (0 : Fin m → K) = -Kx *ᵥ y := fun y => add_zero _
      show (do
          let u ← (if k = 0 then pure (-Kx *ᵥ x0) else do let e ← pyGet elems (k - 1); pure (-Kx *ᵥ e.2))
          let e ← pyGet elems k
          return (u, e.2) : Py _) = (do
          let u ← (if k = 0 then pure (-Kx *ᵥ x0 + 0) else do let e ← pyGet elems (k - 1); pure (-Kx *ᵥ e.2 + 0))
          let e ← pyGet elems k
          return (u, e.2))
      simp only [e]
  unfold LQR.parForwardPass LQT.parForwardPass
  rw [h1]
  simp only [h2]

section Ordered
variable [LinearOrder K] [IsStrictOrderedRing K]

/-! ### Parallel backward pass -/

theorem lqr_parElem {R : LQR n m K} (hU : R.Uᵀ = R.U) :
    R.stage.parElem = (solvePos R.U R.Lᵀ).map fun W => ⟨R.F, 0, R.L * W, 0, R.X⟩ := by
  have hs : R.stage.Zᵀ * R.stage.U * R.stage.Z = R.U := by simp [LQR.stage]
  unfold LStage.parElem
  rw [hs]
  cases h : solvePos R.U R.Lᵀ with
  | error e =>
    have h' : solvePos R.U R.stage.Lᵀ = .error e := h
    rw [h']
    unfold solvePos choFactor at h
    rw [upperSym_eq hU] at h
    by_cases hp : choPD R.U = true
    · rw [if_pos hp] at h; cases h
    · rw [if_neg hp] at h
      cases h
      simp only [LQR.stage, Matrix.mul_one]
      by_cases hd : R.U.det = 0
      · rw [show luFactor R.U = .error .linAlgError by unfold luFactor; rw [if_pos hd]]; rfl
      · have e1 : solveV (1 : Matrix (Fin m) (Fin m) K) 0 = .ok 0 := solveV_ok.2 ⟨by simp, by simp⟩
        rw [luFactor_ok.2 ⟨hd, rfl⟩, e1]
        rfl
  | ok W =>
    have h' : solvePos R.U R.stage.Lᵀ = .ok W := h
    rw [h']
    have hpd := ((solvePos_ok hU).1 h).1
    have hd := hpd.det_ne_zero
    have e1 : solveV R.stage.Z R.stage.s = .ok 0 := solveV_ok.2 ⟨by simp [LQR.stage], by simp [LQR.stage]⟩
    have e2 : solve R.U (0 : Matrix (Fin n) (Fin m) K)ᵀ = .ok 0 := solve_ok.2 ⟨hd, by simp⟩
    have e2 : solve R.stage.U R.stage.Mᵀ = .ok (0 : Matrix (Fin m) (Fin n) K) := e2
    have e3 : luFactor (R.stage.U * R.stage.Z) = .ok (minv R.U) := by
      simp only [LQR.stage, Matrix.mul_one]; exact luFactor_ok.2 ⟨hd, rfl⟩
    rw [e1, e2, e3]
    have e4 : (⟨R.F - R.L * luSolve (minv R.U) ((0 : Matrix (Fin n) (Fin m) K)ᵀ * (1 : Matrix (Fin n) (Fin n) K)),
        0 + R.L *ᵥ luSolveV (minv R.U) ((0 : Matrix (Fin n) (Fin m) K)ᵀ *ᵥ 0) + R.L *ᵥ 0, R.L * W,
        ((1 : Matrix (Fin n) (Fin n) K)ᵀ * (R.X - (0 : Matrix (Fin n) (Fin m) K) * (0 : Matrix (Fin m) (Fin n) K))) *ᵥ 0,
        (1 : Matrix (Fin n) (Fin n) K)ᵀ * (R.X - (0 : Matrix (Fin n) (Fin m) K) * (0 : Matrix (Fin m) (Fin n) K)) * 1⟩ :
        Elem n K) = ⟨R.F, 0, R.L * W, 0, R.X⟩ := by
      simp [luSolve, luSolveV]
    exact congrArg Except.ok e4

omit [IsStrictOrderedRing K] in
theorem lqr_gain_fst (R : LQR n m K) (S : Matrix (Fin n) (Fin n) K) (v : Fin n → K) :
    R.gain S = (R.stage.gains S v).map Prod.fst := by
  have h : R.stage.gains S v = (do
      let cf ← choFactor ((1 : Matrix (Fin m) (Fin m) K)ᵀ * R.U * 1 + R.Lᵀ * S * R.L)
      let Kx := choSolve cf ((1 : Matrix (Fin m) (Fin m) K)ᵀ * (0 : Matrix (Fin n) (Fin m) K)ᵀ *
        (1 : Matrix (Fin n) (Fin n) K) + R.Lᵀ * S * R.F)
      let d := choSolveV cf (((1 : Matrix (Fin m) (Fin m) K)ᵀ * R.U) *ᵥ 0 +
        ((1 : Matrix (Fin m) (Fin m) K)ᵀ * (0 : Matrix (Fin n) (Fin m) K)ᵀ) *ᵥ 0 - (R.Lᵀ * S) *ᵥ 0 + R.Lᵀ *ᵥ v)
      return (Kx, d)) := rfl
  rw [h]
  unfold LQR.gain solvePos
  simp only [transpose_one, Matrix.one_mul, Matrix.mul_one, transpose_zero, Matrix.zero_mul, zero_add]
  cases choFactor (R.U + R.Lᵀ * S * R.L) <;> rfl

theorem mapM_map' {α β γ : Type} (f : α → Py β) (g : β → γ) (l : List α) :
    l.mapM (fun a => (f a).map g) = (l.mapM f).map (List.map g) := by
  induction l with
  | nil => rfl
  | cons a l ih =>
    rw [List.mapM_cons, List.mapM_cons, ih]
    cases f a with
    | error e => rfl
    | ok b => cases l.mapM f <;> rfl

omit [IsStrictOrderedRing K] in
theorem lqr_extract (R : LQR n m K) {T : ℕ} {elems : List (Elem n K)} (hl : elems.length = T + 1) :
    R.parBackwardExtract elems = ((R.toLQT T).parBackwardExtract elems).map fun r => (r.Kx_list, r.S_list) := by
  unfold LQR.parBackwardExtract LQT.parBackwardExtract
  have h : (List.range (elems.length - 1)).mapM (fun k => do
      let e ← pyGet elems (k + 1)
      let Kx ← R.gain e.J
      return (Kx, e.J) : ℕ → Py (Matrix (Fin m) (Fin n) K × Matrix (Fin n) (Fin n) K)) =
      ((List.range (elems.length - 1)).mapM (fun k => do
        let e ← pyGet elems (k + 1)
        let s ← pyGet (R.toLQT T).stages k
        let Kd ← s.gains e.J e.eta
        return (Kd, e) : ℕ → Py ((Matrix (Fin m) (Fin n) K × (Fin m → K)) × Elem n K))).map
        (List.map fun r => (r.1.1, r.2.J)) := by
    rw [← mapM_map']
    refine mapM_congr' fun k hk => ?_
    have hk := List.mem_range.1 hk
    have e1 : pyGet (R.toLQT T).stages k = .ok R.stage := pyGet_replicate (by omega) _
    rw [e1]
    cases pyGet elems (k + 1) with
    | error e => rfl
    | ok e =>
      show (do let Kx ← R.gain e.J; return (Kx, e.J) : Py _) = (do let Kd ← R.stage.gains e.J e.eta; return (Kd, e)).map _
      rw [lqr_gain_fst R e.J e.eta]
      cases R.stage.gains e.J e.eta <;> rfl
  rw [h]
  cases pyGet elems 0 with
  | error e => rfl
  | ok e0 =>
    cases (List.range (elems.length - 1)).mapM (fun k => do
        let e ← pyGet elems (k + 1)
        let s ← pyGet (R.toLQT T).stages k
        let Kd ← s.gains e.J e.eta
        return (Kd, e) : ℕ → Py ((Matrix (Fin m) (Fin n) K × (Fin m → K)) × Elem n K)) with
    | error e => rfl
    | ok rs =>
      show (.ok (_, _) : Py _) = .ok (_, _)
      simp only [List.map_map]
      rfl

theorem forall₂_replicate {α β : Type} {Q : α → β → Prop} {a : α} {b : β} (h : Q a b) (T : ℕ) :
    List.Forall₂ Q (List.replicate T a) (List.replicate T b) := by
  induction T with
  | zero => exact .nil
  | succ T ih => rw [List.replicate_succ, List.replicate_succ]; exact .cons h ih

omit [IsStrictOrderedRing K] in
theorem lqr_term (R : LQR n m K) (T : ℕ) : (R.toLQT T).termElem = ⟨0, 0, 0, 0, R.XT⟩ := by
  have h : (R.toLQT T).termElem = ⟨0, 0, 0, ((1 : Matrix (Fin n) (Fin n) K)ᵀ * R.XT) *ᵥ 0,
    (1 : Matrix (Fin n) (Fin n) K)ᵀ * R.XT * 1⟩ := rfl
  rw [h]
  simp

theorem lqr_par_bw {R : LQR n m K} (hR : R.Sym) {T : ℕ}
    {r : List (Matrix (Fin m) (Fin n) K) × List (Matrix (Fin n) (Fin n) K)} (h : R.parBackwardPass T = .ok r) :
    R.seqBackwardPass T = .ok r := by
  unfold LQR.parBackwardPass LQR.parBackwardInit at h
  simp only [bind_ok, pure, Except.pure] at h
  obtain ⟨el, ⟨W, hW, hel⟩, elems, hsc, hx⟩ := h
  simp only [Except.ok.injEq] at hel
  subst hel
  obtain ⟨hl, hp⟩ := scanVals_suffix hsc
  simp only [List.length_append, List.length_replicate, List.length_singleton] at hl hp
  rw [lqr_extract R hl] at hx
  cases hq : (R.toLQT T).parBackwardExtract elems with
  | error e => rw [hq] at hx; cases hx
  | ok q =>
    rw [hq] at hx
    simp only [Except.map, Except.ok.injEq] at hx
    have he : R.stage.parElem = .ok ⟨R.F, 0, R.L * W, 0, R.X⟩ := by rw [lqr_parElem hR.2.1, hW]; rfl
    have h1 := bw_of_suffix (lqr_sym hR T) (isElem_forall (lqr_sym hR T).1 (forall₂_replicate (Q := fun s e => LStage.parElem s = .ok e) he T)) (by simpa [LQR.toLQT] using hl) (by
      intro k hk
      rw [lqr_term]
      exact hp k (by simp only [LQR.toLQT, List.length_replicate] at hk; omega)) hq
    rw [lqr_seq_bw] at h1
    cases hs : R.seqBackwardPass T with
    | error e => rw [hs] at h1; cases h1
    | ok r' =>
      rw [hs] at h1
      simp only [Except.map, Except.ok.injEq] at h1
      rw [← hx, ← h1]

theorem lqr_convex {R : LQR n m K} (hR : R.Convex) (T : ℕ) : (R.toLQT T).Convex := by
  refine ⟨fun s hs => ?_, hR.2.2⟩
  rw [List.eq_of_mem_replicate hs]
  refine ⟨⟨hR.2.1.1, hR.1.1⟩, by simp [LQR.stage], hR.1.2, ?_⟩
  have key : ∀ (y : Fin n → K) (z : Fin m → K),
      0 ≤ y ⬝ᵥ R.X *ᵥ y + 2 * (y ⬝ᵥ (0 : Matrix (Fin n) (Fin m) K) *ᵥ z) + z ⬝ᵥ R.U *ᵥ z := by
    intro y z
    have := hR.2.1.2 y
    have := hR.1.2.nonneg z
    simp only [zero_mulVec, dotProduct_zero]
    linarith
  exact key

theorem LQR.Convex.toSym {R : LQR n m K} (h : R.Convex) : R.Sym := ⟨h.2.1.1, h.1.1, h.2.2.1⟩

/-- The element of a convex step. -/
theorem lqr_elem {R : LQR n m K} (hU : R.Uᵀ = R.U) (hpd : IsPD R.U) : ∃ W, solvePos R.U R.Lᵀ = .ok W ∧
    solve R.U R.Lᵀ = .ok W ∧ R.stage.parElem = .ok ⟨R.F, 0, R.L * W, 0, R.X⟩ := by
  have h : R.U * (minv R.U * R.Lᵀ) = R.Lᵀ := by rw [← Matrix.mul_assoc, mul_minv hpd.det_ne_zero, Matrix.one_mul]
  have h1 := (solvePos_ok hU).2 ⟨hpd, h⟩
  refine ⟨_, h1, solve_ok.2 ⟨hpd.det_ne_zero, h⟩, ?_⟩
  rw [lqr_parElem hU, h1]
  rfl

theorem lqr_par_total {R : LQR n m K} (hR : R.Convex) (T : ℕ) : ∃ r, R.parBackwardPass T = .ok r := by
  have hc := lqr_convex hR T
  obtain ⟨W, h1, -, h2⟩ := lqr_elem hR.1.1 hR.1.2
  set e : Elem n K := ⟨R.F, 0, R.L * W, 0, R.X⟩
  have hpsd : e.PSD := by
    obtain ⟨e', he', hp⟩ := parElem_convex (s := R.stage) ((lqr_convex hR 1).1 _ (by simp [LQR.toLQT]))
    rw [h2] at he'
    cases he'
    exact hp
  have hall : ∀ x ∈ List.replicate T e ++ [(⟨0, 0, 0, 0, R.XT⟩ : Elem n K)], x.PSD := by
    intro x hx
    rcases List.mem_append.1 hx with hx | hx
    · rw [List.eq_of_mem_replicate hx]; exact hpsd
    · rw [List.mem_singleton.1 hx]; exact elem_psd_of hR.2.2 0
  obtain ⟨elems, hsc⟩ := scanVals_total psd_closed (a := List.replicate T e ++ [(⟨0, 0, 0, 0, R.XT⟩ : Elem n K)])
    (by simp) hall true
  obtain ⟨hl, hp⟩ := scanVals_suffix hsc
  have hl' : elems.length = T + 1 := by simpa using hl
  obtain ⟨r, hr⟩ := extract_total hc (elems := elems) (by simpa [LQR.toLQT] using hl') (by
    intro x hx
    obtain ⟨k, hk, rfl⟩ := List.getElem_of_mem hx
    obtain ⟨w, hw, hP⟩ := hp k (by rw [← hl]; exact hk)
    rw [List.getElem?_eq_getElem hk] at hw
    cases hw
    exact hP.prop (fun x y z hx hy hz => combine_psd hz hx hy) fun x hx => hall x (List.mem_of_mem_drop hx))
  refine ⟨(r.Kx_list, r.S_list), ?_⟩
  unfold LQR.parBackwardPass LQR.parBackwardInit
  simp only [bind_ok, pure, Except.pure]
  refine ⟨_, ⟨W, h1, rfl⟩, elems, hsc, ?_⟩
  rw [lqr_extract R hl', hr]
  rfl

/-! ### Stationary iterations -/

omit [IsStrictOrderedRing K] in
/-- The loop of the iteration against that of the backward pass. -/
theorem lqr_iterLoop (R : LQR n m K) (k : ℕ) (S : Matrix (Fin n) (Fin n) K) (Ks : List (Matrix (Fin m) (Fin n) K))
    (Ss : List (Matrix (Fin n) (Fin n) K)) :
    (R.iterLoop k Ks.getLast? S).map (fun q => (q.1, some q.2)) =
      (R.bwLoop k S Ks (Ss ++ [S])).map fun r => (r.1.getLast?, r.2.getLast?) := by
  induction k generalizing S Ks Ss with
  | zero => simp [LQR.iterLoop, LQR.bwLoop, Except.map]
  | succ k ih =>
    unfold LQR.iterLoop LQR.bwLoop
    cases R.gain S with
    | error e => rfl
    | ok Kx =>
      have := ih (R.update S Kx) (Ks ++ [Kx]) (Ss ++ [S])
      rw [List.getLast?_concat] at this
      exact this

omit [IsStrictOrderedRing K] in
theorem bwLoop_XT (R : LQR n m K) (XT : Matrix (Fin n) (Fin n) K) (k : ℕ) (S : Matrix (Fin n) (Fin n) K)
    (Ks : List (Matrix (Fin m) (Fin n) K)) (Ss : List (Matrix (Fin n) (Fin n) K)) :
    ({ R with XT := XT } : LQR n m K).bwLoop k S Ks Ss = R.bwLoop k S Ks Ss := by
  induction k generalizing S Ks Ss with
  | zero => rfl
  | succ k ih =>
    unfold LQR.bwLoop
    have e1 : ({ R with XT := XT } : LQR n m K).gain S = R.gain S := rfl
    rw [e1]
    cases R.gain S with
    | error e => rfl
    | ok Kx => exact ih _ _ _

omit [IsStrictOrderedRing K] in
theorem lqr_iter_eq (R : LQR n m K) (k : ℕ) : (R.lqrIter k).map (fun q => (q.1, some q.2)) =
    (({ R with XT := R.X } : LQR n m K).seqBackwardPass k).map fun r => (r.1.head?, r.2.head?) := by
  have h := lqr_iterLoop R k R.X [] []
  unfold LQR.lqrIter LQR.seqBackwardPass
  rw [bwLoop_XT]
  simp only [List.getLast?_nil, List.nil_append] at h
  rw [h]
  cases R.bwLoop k R.X [] [R.X] with
  | error e => rfl
  | ok r =>
    show (.ok _ : Py _) = .ok _
    simp only [List.head?_reverse]

omit [IsStrictOrderedRing K] in
/-- Iterating once more. -/
theorem lqr_iterLoop_add (R : LQR n m K) (j k : ℕ) (o : Option (Matrix (Fin m) (Fin n) K))
    (S : Matrix (Fin n) (Fin n) K) :
    R.iterLoop (j + k) o S = (do let r ← R.iterLoop j o S; R.iterLoop k r.1 r.2) := by
  induction j generalizing o S with
  | zero => rw [Nat.zero_add]; rfl
  | succ j ih =>
    rw [Nat.succ_add]
    simp only [LQR.iterLoop]
    cases R.gain S with
    | error e => rfl
    | ok Kx => exact ih _ _

/-- Combining copies of the element with a value function performs Riccati steps. -/
theorem lqr_iter_paren {R : LQR n m K} (hR : R.Sym) (hpd : IsPD R.U) {W : Matrix (Fin m) (Fin n) K}
    (hW : solvePos R.U R.Lᵀ = .ok W) {k : ℕ} {o o' : Option (Matrix (Fin m) (Fin n) K)} {S0 S : Matrix (Fin n) (Fin n) K}
    (h0 : S0ᵀ = S0) (h : R.iterLoop k o S0 = .ok (o', S)) :
    Sᵀ = S ∧ Paren combineABCEJ (List.replicate k ⟨R.F, 0, R.L * W, 0, R.X⟩ ++ [(⟨0, 0, 0, 0, S0⟩ : Elem n K)])
      ⟨0, 0, 0, 0, S⟩ := by
  have he : R.stage.parElem = .ok ⟨R.F, 0, R.L * W, 0, R.X⟩ := by rw [lqr_parElem hR.2.1, hW]; rfl
  have hss : R.stage.Sym := ⟨hR.1, hR.2.1⟩
  induction k generalizing o' S with
  | zero =>
    simp only [LQR.iterLoop, Except.ok.injEq, Prod.mk.injEq] at h
    rw [← h.2]
    exact ⟨h0, by simpa using Paren.single _⟩
  | succ k ih =>
    rw [lqr_iterLoop_add, bind_ok] at h
    obtain ⟨⟨o1, S1⟩, h1, h2⟩ := h
    obtain ⟨hs1, hP⟩ := ih h1
    simp only [LQR.iterLoop] at h2
    rw [bind_ok] at h2
    obtain ⟨Kx, hg, h2⟩ := h2
    simp only [Except.ok.injEq, Prod.mk.injEq] at h2
    obtain ⟨-, rfl⟩ := h2
    have hg' : R.stage.gains S1 0 = .ok (Kx, 0) := by rw [lqr_gains, hg]; rfl
    have hc := combine_riccati hss (parElem_rel hss he) hs1 hg'
    rw [lqr_riccati] at hc
    refine ⟨?_, ?_⟩
    · have := riccati_symm hss hs1 hg'
      rwa [lqr_riccati] at this
    · rw [List.replicate_succ, List.cons_append]
      exact Paren.node (l := [_]) (Paren.single _) hP hc

omit [IsStrictOrderedRing K] in
theorem doubleLoop_paren {k : ℕ} {e e' : Elem n K} (l : List (Elem n K)) (hl : Paren combineABCEJ l e)
    (h : doubleLoop k e = .ok e') : Paren combineABCEJ (List.replicate (2 ^ k) l).flatten e' := by
  induction k generalizing e l with
  | zero =>
    simp only [doubleLoop, Except.ok.injEq] at h
    subst h
    simpa using hl
  | succ k ih =>
    simp only [doubleLoop] at h
    rw [bind_ok] at h
    obtain ⟨e1, h1, h2⟩ := h
    have := ih (l ++ l) (Paren.node hl hl h1) h2
    have e : (List.replicate (2 ^ k) (l ++ l)).flatten = (List.replicate (2 ^ (k + 1)) l).flatten := by
      have : ∀ j, (List.replicate j (l ++ l)).flatten = (List.replicate (2 * j) l).flatten := by
        intro j
        induction j with
        | zero => rfl
        | succ j ihj =>
          rw [List.replicate_succ, List.flatten_cons, ihj, show 2 * (j + 1) = 2 * j + 1 + 1 by ring,
            List.replicate_succ, List.replicate_succ, List.flatten_cons, List.flatten_cons, List.append_assoc]
      rw [this, pow_succ, mul_comm]
    rwa [e] at this

omit [IsStrictOrderedRing K] in
theorem iterLoop_o (R : LQR n m K) (k : ℕ) {o o' q : Option (Matrix (Fin m) (Fin n) K)}
    {S0 S : Matrix (Fin n) (Fin n) K} (h : R.iterLoop k o S0 = .ok (q, S)) : ∃ q', R.iterLoop k o' S0 = .ok (q', S) := by
  cases k with
  | zero =>
    simp only [LQR.iterLoop, Except.ok.injEq, Prod.mk.injEq] at h ⊢
    exact ⟨o', rfl, h.2⟩
  | succ k => exact ⟨q, h⟩

/-- The element with the zero value function. -/
theorem combine_zero (e : Elem n K) : ∃ e', combineABCEJ e ⟨0, 0, 0, 0, 0⟩ = .ok e' ∧ e'.J = e.J := by
  obtain ⟨e', h⟩ := combine_defined (e1 := e) (e2 := ⟨0, 0, 0, 0, 0⟩) (by simp)
  refine ⟨e', h, ?_⟩
  obtain ⟨P, Q, -, -, rfl⟩ := combine_ok h
  simp

theorem lqr_double_eq {R : LQR n m K} (hR : R.Sym) (hpd : IsPD R.U) {k : ℕ} {Kd : Matrix (Fin m) (Fin n) K}
    {S S' : Matrix (Fin n) (Fin n) K} {o : Option (Matrix (Fin m) (Fin n) K)} (h : R.lqrDouble k = .ok (Kd, S))
    (h' : R.lqrIter (2 ^ k - 1) = .ok (o, S')) : S = S' := by
  obtain ⟨W, hW1, hW2, he⟩ := lqr_elem hR.2.1 hpd (R := R)
  unfold LQR.lqrDouble at h
  rw [hW2] at h
  change (do let e ← doubleLoop k ⟨R.F, 0, R.L * W, 0, R.X⟩; let Kx ← R.gain e.J; return (Kx, e.J)) = _ at h
  simp only [bind_ok, pure, Except.pure] at h
  obtain ⟨d, hd, Kx, -, hk⟩ := h
  simp only [Except.ok.injEq, Prod.mk.injEq] at hk
  obtain ⟨rfl, rfl⟩ := hk
  have hP := doubleLoop_paren [_] (Paren.single _) hd
  have hfl : ∀ (j : ℕ) (a : Elem n K), (List.replicate j [a]).flatten = List.replicate j a := by
    intro j a
    induction j with
    | zero => rfl
    | succ j ih => rw [List.replicate_succ, List.flatten_cons, ih]; rfl
  rw [hfl] at hP
  obtain ⟨d', hd', hJ⟩ := combine_zero d
  have hP' := Paren.node hP (Paren.single _) hd'
  have hg0 : R.gain 0 = .ok 0 := by
    unfold LQR.gain
    simp only [Matrix.mul_zero, Matrix.zero_mul, add_zero]
    exact (solvePos_ok hR.2.1).2 ⟨hpd, Matrix.mul_zero _⟩
  obtain ⟨q, hq⟩ := iterLoop_o R (2 ^ k - 1) (o' := some 0) h'
  have hit : R.iterLoop (2 ^ k) none 0 = .ok (q, S') := by
    have hpos : 2 ^ k = (2 ^ k - 1) + 1 := (Nat.sub_add_cancel Nat.one_le_two_pow).symm
    rw [hpos]
    simp only [LQR.iterLoop]
    rw [hg0]
    show R.iterLoop (2 ^ k - 1) (some 0) (R.update 0 0) = _
    have : R.update 0 0 = R.X := by simp [LQR.update]
    rw [this, hq]
  obtain ⟨-, hP2⟩ := lqr_iter_paren hR hpd hW1 (by simp) hit
  have := paren_unique hP' hP2 (by
    intro x hx
    rcases List.mem_append.1 hx with hx | hx
    · rw [List.eq_of_mem_replicate hx]; exact (parElem_rel ⟨hR.1, hR.2.1⟩ he).1
    · rw [List.mem_singleton.1 hx]; exact ⟨by simp, by simp⟩)
  rw [← hJ, this]

theorem lqr_iter_total {R : LQR n m K} (hR : R.Convex) (k : ℕ) : ∃ o S, R.lqrIter k = .ok (o, S) ∧ IsPSD S := by
  have hc : ({ R with XT := R.X } : LQR n m K).Convex := ⟨hR.1, hR.2.1, hR.2.1⟩
  have hc' := lqr_convex hc k
  obtain ⟨S, v, r, hb, hS, -⟩ := bw_convex (psd_conj hc'.2) (((({ R with XT := R.X } : LQR n m K).toLQT k).HTᵀ *
    (({ R with XT := R.X } : LQR n m K).toLQT k).XT) *ᵥ (({ R with XT := R.X } : LQR n m K).toLQT k).rT) _ hc'.1
  have hs := seqBackwardPass_iff.2 ⟨S, v, hb⟩
  rw [lqr_seq_bw] at hs
  have hi := lqr_iter_eq R k
  cases hq : ({ R with XT := R.X } : LQR n m K).seqBackwardPass k with
  | error e => rw [hq] at hs; cases hs
  | ok q =>
    rw [hq] at hs hi
    simp only [Except.map, Except.ok.injEq] at hs hi
    cases hl : R.lqrIter k with
    | error e => rw [hl] at hi; cases hi
    | ok p =>
      rw [hl] at hi
      simp only [Except.ok.injEq, Prod.mk.injEq] at hi
      refine ⟨p.1, p.2, rfl, ?_⟩
      have h1 := hb.head.1
      rw [← hs, ← List.head?_eq_getElem?] at h1
      simp only at h1
      rw [← hi.2] at h1
      rw [Option.some.inj h1]
      exact hS

theorem lqr_double_total {R : LQR n m K} (hR : R.Convex) (k : ℕ) : ∃ Kd S, R.lqrDouble k = .ok (Kd, S) ∧
    R.gain S = .ok Kd := by
  obtain ⟨W, h1, h2, he⟩ := lqr_elem hR.1.1 hR.1.2
  have hst := (lqr_convex hR 1).1 R.stage (by simp [LQR.toLQT])
  have hpsd : (⟨R.F, 0, R.L * W, 0, R.X⟩ : Elem n K).PSD := by
    obtain ⟨e', he', hp⟩ := parElem_convex hst
    rw [he] at he'
    cases he'
    exact hp
  have key : ∀ k (e : Elem n K), e.PSD → ∃ e', doubleLoop k e = .ok e' ∧ e'.PSD := by
    intro k
    induction k with
    | zero => intro e he; exact ⟨e, rfl, he⟩
    | succ k ih =>
      intro e he
      obtain ⟨e1, h3, h4⟩ := psd_closed e e he he
      obtain ⟨e2, h5, h6⟩ := ih e1 h4
      refine ⟨e2, ?_, h6⟩
      simp only [doubleLoop]
      rw [h3]
      exact h5
  obtain ⟨d, hd, hdp⟩ := key k _ hpsd
  obtain ⟨Kx, dd, hg⟩ := gains_convex hst hdp.2 0
  have hg' : R.gain d.J = .ok Kx := by rw [lqr_gain_fst R d.J 0, hg]; rfl
  refine ⟨Kx, d.J, ?_, hg'⟩
  unfold LQR.lqrDouble
  simp only [bind_ok, pure, Except.pure]
  exact ⟨W, h2, d, hd, Kx, hg', rfl⟩

/-! ### Cost -/

omit [LinearOrder K] [IsStrictOrderedRing K] in
theorem lqr_stage_cost (R : LQR n m K) (x : Fin n → K) (u : Fin m → K) :
    R.stage.cost x u = (1 / 2) * (x ⬝ᵥ R.X *ᵥ x) + (1 / 2) * (u ⬝ᵥ R.U *ᵥ u) := by
  have h : R.stage.cost x u = (1 / 2) * (((1 : Matrix (Fin n) (Fin n) K) *ᵥ x - 0) ⬝ᵥ
      R.X *ᵥ ((1 : Matrix (Fin n) (Fin n) K) *ᵥ x - 0)) + (1 / 2) * (((1 : Matrix (Fin m) (Fin m) K) *ᵥ u - 0) ⬝ᵥ
      R.U *ᵥ ((1 : Matrix (Fin m) (Fin m) K) *ᵥ u - 0)) + ((1 : Matrix (Fin n) (Fin n) K) *ᵥ x - 0) ⬝ᵥ
      (0 : Matrix (Fin n) (Fin m) K) *ᵥ ((1 : Matrix (Fin m) (Fin m) K) *ᵥ u - 0) := rfl
  rw [h]
  simp

omit [LinearOrder K] [IsStrictOrderedRing K] in
theorem lqr_total_eq (R : LQR n m K) (us : List (Fin m → K)) (x : Fin n → K) :
    lqtTotal (R.toLQT us.length).final (R.toLQT us.length).stages x us = R.total x us ∧
      lqtRun (R.toLQT us.length).stages x us = R.run x us := by
  have hf : ∀ (T : ℕ) (y : Fin n → K), (R.toLQT T).final y = (1 / 2) * (y ⬝ᵥ R.XT *ᵥ y) := by
    intro T y
    have h : (R.toLQT T).final y = (1 / 2) * (((1 : Matrix (Fin n) (Fin n) K) *ᵥ y - 0) ⬝ᵥ
      R.XT *ᵥ ((1 : Matrix (Fin n) (Fin n) K) *ᵥ y - 0)) := rfl
    rw [h]; simp
  have hn : ∀ y u, R.stage.next y u = R.F *ᵥ y + R.L *ᵥ u := by
    intro y u; simp [LStage.next, LQR.stage]
  have key : ∀ (T : ℕ) (us : List (Fin m → K)) (x : Fin n → K), us.length = T → ∀ T',
      lqtTotal (R.toLQT T').final (List.replicate T R.stage) x us = R.total x us ∧
      lqtRun (List.replicate T R.stage) x us = R.run x us := by
    intro T
    induction T with
    | zero =>
      intro us x h T'
      rw [List.length_eq_zero_iff.1 h]
      simp [lqtTotal, lqtRun, LQR.total, LQR.run, hf]
    | succ T ih =>
      intro us x h T'
      cases us with
      | nil => simp at h
      | cons u us =>
        obtain ⟨h1, h2⟩ := ih us (R.F *ᵥ x + R.L *ᵥ u) (by simpa using h) T'
        simp only [List.replicate_succ, lqtTotal, lqtRun, LQR.total, LQR.run, hn, h1, h2, lqr_stage_cost]
        exact ⟨trivial, trivial⟩
  exact key us.length us x rfl us.length

end Ordered

end Verif
