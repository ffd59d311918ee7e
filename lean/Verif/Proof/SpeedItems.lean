import Verif.Proof.SpeedLinear
import Verif.Proof.LinearModel
import Verif.Proof.MassLQT
import Verif.Spec.Condensing

/-! The problems yielded by the generators of the speed tests. -/

namespace Verif

open Matrix

variable {n m p q N : ℕ} {K : Type}

/-! ### Conversion to tensors -/

theorem tfMat_ofMat (A : Matrix (Fin p) (Fin q) K) : tfMat p q (.ofMat A) = .ok A := by
  unfold tfMat
  rw [dif_pos ⟨rfl, rfl⟩]
  rfl

theorem tfVec_ofVec (v : Fin p → K) : tfVec p (.ofVec v) = .ok v := by
  unfold tfVec
  rw [dif_pos (show (NArr1.ofVec v).len = p from rfl)]
  rfl

theorem mapM_conv {α β γ : Type} (f : β → Py γ) (g : α → β) (h : α → γ) (l : List α) (hf : ∀ a ∈ l, f (g a) = .ok (h a)) :
    (l.map g).mapM f = .ok (l.map h) := by
  rw [mapM_ok_iff]
  rw [List.forall₂_map_left_iff, List.forall₂_map_right_iff]
  exact List.forall₂_same.2 hf

theorem zip_stages (l : List (TStage n m p K)) :
    ((l.map TStage.F).zip ((l.map TStage.c).zip ((l.map TStage.L).zip ((l.map TStage.H).zip ((l.map TStage.r).zip
      ((l.map TStage.X).zip (l.map TStage.U))))))).map
      (fun x => (⟨x.1, x.2.1, x.2.2.1, x.2.2.2.1, x.2.2.2.2.1, x.2.2.2.2.2.1, x.2.2.2.2.2.2⟩ : TStage n m p K)) = l := by
  simp only [List.zip_map', List.map_map]
  exact List.map_id l

/-- The conversion reads all fields but `Z`, `s`, `M`. -/
theorem npToTf_congr (o o' : RawLQT K) (h : o.F = o'.F ∧ o.L = o'.L ∧ o.X = o'.X ∧ o.U = o'.U ∧ o.XT = o'.XT ∧ o.c = o'.c ∧
    o.H = o'.H ∧ o.r = o'.r ∧ o.HT = o'.HT ∧ o.rT = o'.rT) : o.npToTf n m p q = o'.npToTf n m p q := by
  obtain ⟨h1, h2, h3, h4, h5, h6, h7, h8, h9, h10⟩ := h
  unfold RawLQT.npToTf
  rw [h1, h2, h3, h4, h5, h6, h7, h8, h9, h10]

variable [Field K]

theorem npToTf_toLQT (P : TFLQT n m p q K) : P.toLQT.raw.npToTf n m p q = .ok P := by
  have hF : P.toLQT.raw.F.mapM (tfMat n n) = .ok (P.stages.map TStage.F) := by
    rw [show P.toLQT.raw.F = P.stages.map ((fun s => NArr2.ofMat s.F) ∘ TStage.toL) from List.map_map ..]
    exact mapM_conv _ _ _ _ fun s _ => tfMat_ofMat _
  have hc : P.toLQT.raw.c.mapM (tfVec n) = .ok (P.stages.map TStage.c) := by
    rw [show P.toLQT.raw.c = P.stages.map ((fun s => NArr1.ofVec s.c) ∘ TStage.toL) from List.map_map ..]
    exact mapM_conv _ _ _ _ fun s _ => tfVec_ofVec _
  have hL : P.toLQT.raw.L.mapM (tfMat n m) = .ok (P.stages.map TStage.L) := by
    rw [show P.toLQT.raw.L = P.stages.map ((fun s => NArr2.ofMat s.L) ∘ TStage.toL) from List.map_map ..]
    exact mapM_conv _ _ _ _ fun s _ => tfMat_ofMat _
  have hH : P.toLQT.raw.H.mapM (tfMat p n) = .ok (P.stages.map TStage.H) := by
    rw [show P.toLQT.raw.H = P.stages.map ((fun s => NArr2.ofMat s.H) ∘ TStage.toL) from List.map_map ..]
    exact mapM_conv _ _ _ _ fun s _ => tfMat_ofMat _
  have hr : P.toLQT.raw.r.mapM (tfVec p) = .ok (P.stages.map TStage.r) := by
    rw [show P.toLQT.raw.r = P.stages.map ((fun s => NArr1.ofVec s.r) ∘ TStage.toL) from List.map_map ..]
    exact mapM_conv _ _ _ _ fun s _ => tfVec_ofVec _
  have hX : P.toLQT.raw.X.mapM (tfMat p p) = .ok (P.stages.map TStage.X) := by
    rw [show P.toLQT.raw.X = P.stages.map ((fun s => NArr2.ofMat s.X) ∘ TStage.toL) from List.map_map ..]
    exact mapM_conv _ _ _ _ fun s _ => tfMat_ofMat _
  have hU : P.toLQT.raw.U.mapM (tfMat m m) = .ok (P.stages.map TStage.U) := by
    rw [show P.toLQT.raw.U = P.stages.map ((fun s => NArr2.ofMat s.U) ∘ TStage.toL) from List.map_map ..]
    exact mapM_conv _ _ _ _ fun s _ => tfMat_ofMat _
  unfold RawLQT.npToTf
  rw [hF, py_ok_bind, hc, py_ok_bind, hL, py_ok_bind, hH, py_ok_bind, show P.toLQT.raw.HT = .ofMat P.HT from rfl, tfMat_ofMat, py_ok_bind,
    hr, py_ok_bind, show P.toLQT.raw.rT = .ofVec P.rT from rfl, tfVec_ofVec, py_ok_bind, hX, py_ok_bind,
    show P.toLQT.raw.XT = .ofMat P.XT from rfl, tfMat_ofMat, py_ok_bind, hU, py_ok_bind]
  simp only [List.length_map, and_self, not_true_eq_false, if_false]
  have := zip_stages P.stages
  exact congrArg Except.ok (by rw [show P = ⟨P.stages, P.HT, P.rT, P.XT⟩ from rfl]; exact congrArg (fun l => (⟨l, P.HT, P.rT, P.XT⟩ : TFLQT n m p q K)) this)

theorem npToTfGen_toLQT (P : TFGen n m p q K) : P.toLQT.raw.npToTfGen n m p q = .ok P := by
  have h1 : P.toLQT.raw.npToTf n m p q = .ok ⟨P.stages.map GStage.toTStage, P.HT, P.rT, P.XT⟩ := by
    rw [← npToTf_toLQT]
    apply npToTf_congr
    refine ⟨?_, ?_, ?_, ?_, ?_, ?_, ?_, ?_, ?_, ?_⟩ <;>
      first | rfl | (simp only [LQT.raw, TFGen.toLQT, TFLQT.toLQT, List.map_map]; rfl)
  unfold RawLQT.npToTfGen
  have hM : P.toLQT.raw.M.mapM (tfMat p m) = .ok (P.stages.map GStage.M) := by
    rw [show P.toLQT.raw.M = P.stages.map ((fun s => NArr2.ofMat s.M) ∘ GStage.toL) from List.map_map ..]
    exact mapM_conv _ _ _ _ fun s _ => tfMat_ofMat _
  have hs : P.toLQT.raw.s.mapM (tfVec m) = .ok (P.stages.map GStage.s) := by
    rw [show P.toLQT.raw.s = P.stages.map ((fun s => NArr1.ofVec s.s) ∘ GStage.toL) from List.map_map ..]
    exact mapM_conv _ _ _ _ fun s _ => tfVec_ofVec _
  rw [h1, py_ok_bind, hM, py_ok_bind, hs, py_ok_bind]
  simp only [List.length_map, and_self, not_true_eq_false, if_false]
  refine congrArg Except.ok ?_
  rw [show P = ⟨P.stages, P.HT, P.rT, P.XT⟩ from rfl]
  refine congrArg (fun l => (⟨l, P.HT, P.rT, P.XT⟩ : TFGen n m p q K)) ?_
  simp only [List.zip_map', List.map_map]
  exact List.map_id _

theorem tfMat_ok_dim {a b : ℕ} {A : Matrix (Fin a) (Fin b) K} {B : Matrix (Fin p) (Fin q) K} (h : tfMat p q (.ofMat A) = .ok B) :
    a = p ∧ b = q := by
  unfold tfMat at h
  split at h
  · rename_i hh; exact hh
  · cases h

theorem npToTf_dim {Q : LQT n m K} {P : TFLQT n m p q K} (h : Q.raw.npToTf n m p q = .ok P) :
    (∀ s ∈ Q.stages, s.p = p) ∧ Q.pT = q := by
  unfold RawLQT.npToTf at h
  obtain ⟨_, _, h⟩ := bind_ok.1 h
  obtain ⟨_, _, h⟩ := bind_ok.1 h
  obtain ⟨_, _, h⟩ := bind_ok.1 h
  obtain ⟨Hs, h1, h⟩ := bind_ok.1 h
  obtain ⟨HT, h2, h⟩ := bind_ok.1 h
  refine ⟨fun s hs => ?_, (tfMat_ok_dim h2).1⟩
  have := mapM_ok_iff.1 h1
  rw [show Q.raw.H = Q.stages.map fun s => .ofMat s.H from rfl, List.forall₂_map_left_iff] at this
  obtain ⟨k, hk⟩ := List.mem_iff_getElem?.1 hs
  obtain ⟨B, -, hB⟩ := (forall₂_get.1 this).2 k s hk
  exact (tfMat_ok_dim hB).1

theorem exists_stage (s : LStage n m K) (h : s.p = p) : ∃ t : GStage n m p K, t.toL = { s with Z := 1 } ∧ t.toTStage.toL = s.strip := by
  obtain ⟨p', F, L, X, U, c, H, r, Z, s', M⟩ := s
  cases (show p' = p from h)
  exact ⟨⟨⟨F, c, L, H, r, X, U⟩, M, s'⟩, rfl, rfl⟩

theorem exists_gen (Q : LQT n m K) (h : (∀ s ∈ Q.stages, s.p = p) ∧ Q.pT = q) : ∃ P : TFGen n m p q K,
    P.toLQT = { Q with stages := Q.stages.map fun s => { s with Z := 1 } } ∧
    (⟨P.stages.map GStage.toTStage, P.HT, P.rT, P.XT⟩ : TFLQT n m p q K).toLQT = { Q with stages := Q.stages.map LStage.strip } := by
  obtain ⟨ss, pT, XT, HT, rT⟩ := Q
  obtain ⟨h, rfl⟩ := h
  have : ∃ gs : List (GStage n m p K), gs.map GStage.toL = ss.map (fun s => { s with Z := 1 }) ∧
      (gs.map GStage.toTStage).map TStage.toL = ss.map LStage.strip := by
    dsimp only at h
    induction ss with
    | nil => exact ⟨[], rfl, rfl⟩
    | cons s ss ih =>
      obtain ⟨gs, h1, h2⟩ := ih fun s hs => h s (by simp [hs])
      obtain ⟨t, h3, h4⟩ := exists_stage s (h s (by simp))
      exact ⟨t :: gs, by simp [h1, h3], by simp only [List.map_cons, h4, h2]⟩
  obtain ⟨gs, h1, h2⟩ := this
  exact ⟨⟨gs, HT, rT, XT⟩, by simp only [TFGen.toLQT, h1], by simp only [TFLQT.toLQT, h2]⟩

theorem gtoL_inj {s t : GStage n m p K} (h : s.toL = t.toL) : s = t := by
  obtain ⟨⟨F, c, L, H, r, X, U⟩, M, s'⟩ := s
  obtain ⟨⟨F, c, L, H, r, X, U⟩, M, s'⟩ := t
  simp only [GStage.toL, LStage.mk.injEq, heq_eq_eq, true_and, and_true] at h
  simp only [GStage.mk.injEq, TStage.mk.injEq]
  tauto

theorem toL_inj {s t : TStage n m p K} (h : s.toL = t.toL) : s = t := by
  obtain ⟨F, c, L, H, r, X, U⟩ := s
  obtain ⟨F, c, L, H, r, X, U⟩ := t
  simp only [TStage.toL, LStage.mk.injEq, heq_eq_eq, true_and, and_true] at h
  simp only [TStage.mk.injEq]
  tauto

theorem toLQT_inj {P Q : TFLQT n m p q K} (h : P.toLQT = Q.toLQT) : P = Q := by
  obtain ⟨a, b, c, d⟩ := P
  obtain ⟨a', b', c', d'⟩ := Q
  simp only [TFLQT.toLQT, LQT.mk.injEq, heq_eq_eq, true_and] at h
  obtain ⟨h1, rfl, rfl, rfl⟩ := h
  rw [List.map_injective_iff.2 (fun _ _ => toL_inj) h1]

theorem gtoLQT_inj {P Q : TFGen n m p q K} (h : P.toLQT = Q.toLQT) : P = Q := by
  obtain ⟨a, b, c, d⟩ := P
  obtain ⟨a', b', c', d'⟩ := Q
  simp only [TFGen.toLQT, LQT.mk.injEq, heq_eq_eq, true_and] at h
  obtain ⟨h1, rfl, rfl, rfl⟩ := h
  rw [List.map_injective_iff.2 (fun _ _ => gtoL_inj) h1]

theorem raw_strip (Q : LQT n m K) :
    Q.raw.npToTf n m p q = (LQT.raw { Q with stages := Q.stages.map LStage.strip }).npToTf n m p q := by
  apply npToTf_congr
  refine ⟨?_, ?_, ?_, ?_, ?_, ?_, ?_, ?_, ?_, ?_⟩ <;> first | rfl | (simp only [LQT.raw, List.map_map]; rfl)

theorem raw_noZ (Q : LQT n m K) : Q.raw.npToTfGen n m p q =
    (LQT.raw { Q with stages := Q.stages.map fun s => { s with Z := 1 } }).npToTfGen n m p q := by
  unfold RawLQT.npToTfGen
  rw [npToTf_congr Q.raw (LQT.raw { Q with stages := Q.stages.map fun s => { s with Z := 1 } }) (by
    refine ⟨?_, ?_, ?_, ?_, ?_, ?_, ?_, ?_, ?_, ?_⟩ <;> first | rfl | (simp only [LQT.raw, List.map_map]; rfl))]
  simp only [LQT.raw, List.map_map]
  rfl

theorem npToTf_iff (Q : LQT n m K) (P : TFLQT n m p q K) :
    Q.raw.npToTf n m p q = .ok P ↔ P.toLQT = { Q with stages := Q.stages.map LStage.strip } := by
  constructor
  · intro h
    obtain ⟨G, -, hG⟩ := exists_gen Q (npToTf_dim h)
    rw [raw_strip, ← hG, npToTf_toLQT] at h
    rw [← hG, ← Except.ok.inj h]
  · intro h
    rw [raw_strip, ← h, npToTf_toLQT]

theorem npToTfGen_iff (Q : LQT n m K) (P : TFGen n m p q K) :
    Q.raw.npToTfGen n m p q = .ok P ↔ P.toLQT = { Q with stages := Q.stages.map fun s => { s with Z := 1 } } := by
  constructor
  · intro h
    have h' := h
    unfold RawLQT.npToTfGen at h'
    obtain ⟨P0, h0, -⟩ := bind_ok.1 h'
    obtain ⟨G, hG, -⟩ := exists_gen Q (npToTf_dim h0)
    rw [raw_noZ, ← hG, npToTfGen_toLQT] at h
    rw [← hG, ← Except.ok.inj h]
  · intro h
    rw [raw_noZ, ← h, npToTfGen_toLQT]

/-! ### Blocks -/

section Rigid
variable [LinearOrder K] [IsStrictOrderedRing K]

/-- If the cost of the steps is constant along a direction, it vanishes there. -/
theorem rigid_zero {ss : List (LStage n m K)} {x : Fin n → K} {us : List (Fin m → K)} (hl : us.length = ss.length)
    (hp : ∀ s ∈ ss, s.Plain)
    (h : ∀ (y : Fin n → K) (ws : List (Fin m → K)), ws.length = ss.length →
      lqtTotal (fun _ => 0) (ss.map LStage.homog) (x + y) (List.zipWith (· + ·) us ws) =
        lqtTotal (fun _ => 0) (ss.map LStage.homog) y ws) :
    lqtTotal (fun _ => 0) (ss.map LStage.homog) x us = 0 := by
  have h0 := h 0 (List.replicate ss.length 0) (by simp)
  have e1 : ∀ (us : List (Fin m → K)) k, us.length = k → List.zipWith (· + ·) us (List.replicate k (0 : Fin m → K)) = us := by
    intro us
    induction us with
    | nil => intro k hk; simp
    | cons u us ih =>
      intro k hk
      obtain _ | k := k
      · simp at hk
      · simp [List.replicate_succ, ih k (by simpa using hk)]
  have e2 : ∀ (ss : List (LStage n m K)), (∀ s ∈ ss, s.Plain) →
      lqtTotal (fun _ => 0) (ss.map LStage.homog) (0 : Fin n → K) (List.replicate ss.length (0 : Fin m → K)) = 0 := by
    intro ss
    induction ss with
    | nil => intro _; rfl
    | cons s ss ih =>
      intro hp
      have e3 : s.homog.next 0 0 = 0 := by simp [LStage.next, LStage.homog]
      simp only [List.map_cons, List.length_cons, List.replicate_succ, lqtTotal, plain_homog_cost (hp s (by simp)), e3]
      rw [ih fun s hs => hp s (by simp [hs])]
      simp
  rw [add_zero, e1 us _ hl, e2 ss hp] at h0
  exact h0

/-- A step of positive weight on the first state makes a block rigid. -/
theorem rigid_pd {s : LStage n m K} {ss : List (LStage n m K)} (hpc : ∀ t ∈ s :: ss, t.Plain ∧ t.Convex)
    (hpd : IsPD (s.Hᵀ * s.X * s.H)) : Rigid (s :: ss) := by
  intro x us hl h
  have h0 := rigid_zero hl (fun t ht => (hpc t ht).1) h
  have hu : ∀ u ∈ us, u = 0 := by
    by_contra hc
    push Not at hc
    exact ((homog_pos x hl hpc).2 hc).ne' h0
  refine ⟨?_, hu⟩
  cases us with
  | nil => simp at hl
  | cons u us =>
    by_contra hx
    obtain ⟨hp, hc⟩ := hpc s (by simp)
    have h1 := hpd x hx
    have h2 := hc.pd.nonneg u
    have h3 := (homog_pos (ss := ss) (us := us) (s.homog.next x u) (by simpa using hl) fun t ht => hpc t (by simp [ht])).1
    simp only [List.map_cons, lqtTotal, plain_homog_cost hp] at h0
    linarith

end Rigid

/-- A step of the tracking problem. -/
noncomputable def trStage (dt a : ℝ) (r : Fin 2 → ℝ) : LStage 4 2 ℝ :=
  ⟨2, cvF dt, cvL dt, a • 1, (0.1 : ℝ) • 1, 0, linH, r, 1, 0, 0⟩

theorem trStage_good (dt a : ℝ) (ha : 0 < a) (r : Fin 2 → ℝ) : (trStage dt a r).Plain ∧ (trStage dt a r).Convex :=
  ⟨⟨rfl, rfl, rfl⟩, convex_of _ _ _ _ _ _ _ (isPSD_smul_one a ha.le) (by simp) (isPD_smul_one _ (by norm_num))⟩

theorem trStage_cost (dt a : ℝ) (r : Fin 2 → ℝ) (x : Fin 4 → ℝ) (u : Fin 2 → ℝ) :
    (trStage dt a r).homog.cost x u = 1 / 2 * (a * (x 0 ^ 2 + x 1 ^ 2) + 0.1 * (u 0 ^ 2 + u 1 ^ 2)) := by
  have e : linH *ᵥ x = ![x 0, x 1] := by
    ext i
    fin_cases i <;> simp [linH, mulVec, dotProduct, Fin.sum_univ_succ]
  have h : (trStage dt a r).homog.cost x u = halfQuad (a • (1 : Matrix (Fin 2) (Fin 2) ℝ)) (linH *ᵥ x - 0) +
    halfQuad ((0.1 : ℝ) • (1 : Matrix (Fin 2) (Fin 2) ℝ)) ((1 : Matrix (Fin 2) (Fin 2) ℝ) *ᵥ u - 0) +
    (linH *ᵥ x - 0) ⬝ᵥ (0 : Matrix (Fin 2) (Fin 2) ℝ) *ᵥ ((1 : Matrix (Fin 2) (Fin 2) ℝ) *ᵥ u - 0) := rfl
  rw [h, e, sub_zero, sub_zero, one_mulVec, zero_mulVec, dotProduct_zero]
  simp only [halfQuad, smul_mulVec, one_mulVec, dotProduct_smul, dotProduct, Fin.sum_univ_two, smul_eq_mul, Pi.smul_apply, cons_val_zero,
    cons_val_one]
  ring

theorem trStage_next (dt a : ℝ) (r : Fin 2 → ℝ) (x : Fin 4 → ℝ) :
    (trStage dt a r).homog.next x 0 = ![x 0 + dt * x 2, x 1 + dt * x 3, x 2, x 3] := by
  ext i
  fin_cases i <;> simp [LStage.next, LStage.homog, trStage, cvF, mulVec, dotProduct, Fin.sum_univ_succ]

theorem rigid_track {dt : ℝ} (hdt : dt ≠ 0) (ss : List (LStage 4 2 ℝ)) (hss : ∀ s ∈ ss, ∃ a r, 0 < a ∧ s = trStage dt a r)
    (hne : ss ≠ []) : Rigid ss ↔ 2 ≤ ss.length := by
  have hpc : ∀ s ∈ ss, s.Plain ∧ s.Convex := by
    intro s hs
    obtain ⟨a, r, ha, rfl⟩ := hss s hs
    exact trStage_good dt a ha r
  match ss, hne with
  | [s], _ =>
    refine iff_of_false ?_ (by simp)
    obtain ⟨a, r, ha, rfl⟩ := hss s (by simp)
    intro h
    have := (h ![0, 0, 1, 0] [0] rfl (by
      intro y ws hw
      obtain ⟨w, rfl⟩ := List.length_eq_one_iff.1 hw
      simp only [List.map_cons, List.map_nil, List.zipWith_cons_cons, List.zipWith_nil_left, lqtTotal, trStage_cost]
      simp)).1
    have h2 := congrFun this 2
    simp at h2
  | s :: t :: rest, _ =>
    refine iff_of_true ?_ (by simp)
    intro x us hl h
    have h0 := rigid_zero hl (fun t ht => (hpc t ht).1) h
    have hu : ∀ u ∈ us, u = 0 := by
      by_contra hc
      push Not at hc
      exact ((homog_pos x hl hpc).2 hc).ne' h0
    refine ⟨?_, hu⟩
    obtain ⟨a, r, ha, rfl⟩ := hss s (by simp)
    obtain ⟨b, r', hb, rfl⟩ := hss t (by simp)
    match us, hl, hu, h0 with
    | u :: v :: us, hl, hu, h0 =>
      obtain rfl := hu u (by simp)
      obtain rfl := hu v (by simp)
      have h3 := (homog_pos (ss := rest) (us := us) ((trStage dt b r').homog.next ((trStage dt a r).homog.next x 0) 0)
        (by simpa using hl) fun t ht => hpc t (by simp [ht])).1
      simp only [List.map_cons, lqtTotal, trStage_cost] at h0
      rw [trStage_next dt a r] at h0 h3
      generalize lqtTotal (fun _ => (0 : ℝ)) _ _ us = c at h0 h3
      simp only [Pi.zero_apply, cons_val_zero, cons_val_one] at h0
      norm_num at h0
      have e0 : x 0 ^ 2 + x 1 ^ 2 = 0 ∧ (x 0 + dt * x 2) ^ 2 + (x 1 + dt * x 3) ^ 2 = 0 := by
        have k1 : 0 ≤ a * (x 0 ^ 2 + x 1 ^ 2) := by positivity
        have k2 : 0 ≤ b * ((x 0 + dt * x 2) ^ 2 + (x 1 + dt * x 3) ^ 2) := by positivity
        have k3 : a * (x 0 ^ 2 + x 1 ^ 2) = 0 := by linarith
        have k4 : b * ((x 0 + dt * x 2) ^ 2 + (x 1 + dt * x 3) ^ 2) = 0 := by linarith
        exact ⟨(mul_eq_zero.1 k3).resolve_left ha.ne', (mul_eq_zero.1 k4).resolve_left hb.ne'⟩
      obtain ⟨e1, e2⟩ := e0
      have x0 : x 0 = 0 := by nlinarith [sq_nonneg (x 0), sq_nonneg (x 1)]
      have x1 : x 1 = 0 := by nlinarith [sq_nonneg (x 0), sq_nonneg (x 1)]
      rw [x0, x1, zero_add, zero_add] at e2
      have e3 : (dt * x 2) ^ 2 = 0 := by nlinarith [sq_nonneg (dt * x 2), sq_nonneg (dt * x 3)]
      have e4 : (dt * x 3) ^ 2 = 0 := by nlinarith [sq_nonneg (dt * x 2), sq_nonneg (dt * x 3)]
      have x2 : x 2 = 0 := by simpa [hdt] using e3
      have x3 : x 3 = 0 := by simpa [hdt] using e4
      ext i
      fin_cases i
      · exact x0
      · exact x1
      · exact x2
      · exact x3

theorem blocks_two (N len : ℕ) (hN : 0 < N) (hl : 0 < len) :
    (∀ k, N * k < len → 2 ≤ min N (len - N * k)) ↔ N ≠ 1 ∧ len % N ≠ 1 := by
  constructor
  · intro h
    have h0 := h 0 (by simpa using hl)
    refine ⟨by omega, fun h1 => ?_⟩
    have e := Nat.div_add_mod len N
    have := h (len / N) (by omega)
    omega
  · rintro ⟨h1, h2⟩ k hk
    have : len - N * k ≠ 1 := by
      intro h3
      apply h2
      rw [show len = 1 + N * k by omega, Nat.add_mul_mod_self_left, Nat.mod_eq_of_lt (by omega)]
    omega

/-! ### Items -/

theorem strip_plain {s : LStage n m K} (h : s.Plain) : s.strip = s := by
  obtain ⟨p', F, L, X, U, c, H, r, Z, s', M⟩ := s
  obtain ⟨h1, h2, h3⟩ := h
  dsimp only at h1 h2 h3
  subst h1 h2
  rw [h3]
  rfl

theorem trackItem_eq (rnd : ℕ → ℝ) (T : ℕ) (hT : 10 ≤ T) : ∃ (pts : ℕ → Fin 2 → ℝ) (P : TFLQT 4 2 2 4 ℝ),
    linGenData rnd (T / 10) = .ok ((List.range (T / 10)).map pts) ∧
    trackItem rnd T = .ok ⟨4, 2, 2, 4, ![pts 0 0, pts 0 1, 0, 0], P⟩ ∧ P.toLQT = linLQT pts 10 (T / 10) := by
  obtain ⟨pts, h1, -⟩ := linGenData_eq rnd (T / 10) (by omega)
  have h2 := linGetLQT_eq pts 10 (T / 10) (by norm_num) (by omega)
  have hp : ∀ s ∈ (linLQT pts 10 (T / 10)).stages, s.Plain := by
    intro s hs
    simp only [linLQT, trackLQT, List.mem_map] at hs
    obtain ⟨k, -, rfl⟩ := hs
    exact ⟨rfl, rfl, rfl⟩
  have hd : (∀ s ∈ (linLQT pts 10 (T / 10)).stages, s.p = 2) ∧ (linLQT pts 10 (T / 10)).pT = 4 := by
    refine ⟨fun s hs => ?_, rfl⟩
    simp only [linLQT, trackLQT, List.mem_map] at hs
    obtain ⟨k, -, rfl⟩ := hs
    rfl
  obtain ⟨G, -, hG⟩ := exists_gen _ hd
  have e : ({ linLQT pts 10 (T / 10) with stages := (linLQT pts 10 (T / 10)).stages.map LStage.strip } : LQT 4 2 ℝ) =
      linLQT pts 10 (T / 10) := by
    have : (linLQT pts 10 (T / 10)).stages.map LStage.strip = (linLQT pts 10 (T / 10)).stages := by
      conv_rhs => rw [← List.map_id (linLQT pts 10 (T / 10)).stages]
      exact List.map_congr_left fun s hs => strip_plain (hp s hs)
    rw [this]
  refine ⟨pts, _, h1, ?_, hG.trans e⟩
  unfold trackItem
  rw [h1, py_ok_bind]
  have h2' : linGetLQT ((List.range (T / 10)).map pts) 10 = .ok ((linLQT pts 10 (T / 10)).raw, ![pts 0 0, pts 0 1, 0, 0]) := h2
  rw [h2', py_ok_bind]
  dsimp only
  rw [(npToTf_iff _ _).2 hG, py_ok_bind]
  rfl

theorem trackItem_small (rnd : ℕ → ℝ) (T : ℕ) (hT : T < 10) : trackItem rnd T = .error .indexError := by
  unfold trackItem linGenData
  rw [show T / 10 = 0 by omega]
  rfl

theorem massItem_eq (N T : ℕ) (hN : 0 < N) (hT : 0 < T) : ∃ P : TFLQT (2 * N) 2 (2 * N) (2 * N) ℝ,
    massItem N T = .ok ⟨2 * N, 2, 2 * N, 2 * N, massX0 N, P⟩ ∧ P.toLQT = massLQT N T (10 / T) := by
  have hT' : (T : ℝ) ≠ 0 := by exact_mod_cast hT.ne'
  have hd : (∀ s ∈ (massLQT N T (10 / T)).stages, s.p = 2 * N) ∧ (massLQT N T (10 / T)).pT = 2 * N := by
    refine ⟨fun s hs => ?_, rfl⟩
    rw [(List.mem_replicate.1 hs).2]
    rfl
  obtain ⟨G, -, hG⟩ := exists_gen _ hd
  have e : ({ massLQT N T (10 / T) with stages := (massLQT N T (10 / T)).stages.map LStage.strip } : LQT (2 * N) 2 ℝ) =
      massLQT N T (10 / T) := by
    simp only [massLQT, List.map_replicate]
    rfl
  refine ⟨_, ?_, hG.trans e⟩
  have e2 : pyInt ((10 : ℝ) / (10 / T)) = T := by
    have : (10 : ℝ) / (10 / T) = T := by field_simp
    rw [this]
    unfold pyInt
    rw [if_pos (by positivity)]
    simp
  have h2 := getLQT_eq (⟨1, (1 / 10 : ℝ) • 1, 1, massFc N, massLc N, massX0 N⟩ : MassModel N ℝ) rfl rfl rfl rfl rfl (10 / T) 10
    (by positivity)
  rw [e2, Int.toNat_natCast] at h2
  unfold massItem
  rw [massInit_eq N hN, py_ok_bind]
  dsimp only
  rw [if_neg hT.ne', h2]
  change ((massLQT N T (10 / T)).raw.npToTf (2 * N) 2 (2 * N) (2 * N) >>= _) = _
  rw [(npToTf_iff _ _).2 hG]
  rfl

/-! ### Loops -/

theorem speedLoop_go {α β : Type} (run : α → Py β) (T D : α → ℕ) (n_iter : ℕ) (hn : 0 < n_iter) :
    ∀ (items : List α) (acc : List ℕ × List ℕ), (∀ a ∈ items, ∃ b, run a = .ok b) →
    (items.map Except.ok).foldlM (fun (acc : List ℕ × List ℕ) (item : Py α) => do
      let a ← item
      let _ ← run a
      let _ ← (List.range n_iter).mapM fun _ => run a
      let acc := (acc.1 ++ [T a], acc.2 ++ [D a])
      if n_iter = 0 then throw .zeroDivisionError
      return acc) acc = (.ok (acc.1 ++ items.map T, acc.2 ++ items.map D) : Py _)
  | [], acc, _ => by simp; rfl
  | a :: items, acc, h => by
    obtain ⟨b, hb⟩ := h a (by simp)
    have hm : (List.range n_iter).mapM (fun _ => (Except.ok b : Py β)) = .ok ((List.range n_iter).map fun _ => b) := by
      rw [mapM_ok_iff, List.forall₂_map_right_iff]
      exact List.forall₂_same.2 fun _ _ => rfl
    rw [List.map_cons, List.foldlM_cons]
    rw [py_ok_bind, hb, py_ok_bind, hm, py_ok_bind]
    dsimp only
    rw [if_neg hn.ne']
    change (items.map Except.ok).foldlM _ _ = _
    rw [speedLoop_go run T D n_iter hn items _ fun a ha => h a (by simp [ha])]
    simp

theorem speedLoop_ok {α β : Type} {run : α → Py β} (T D : α → ℕ) {n_iter : ℕ} (hn : 0 < n_iter) {gen : List (Py α)}
    {items : List α} (hg : gen = items.map Except.ok) (h : ∀ a ∈ items, ∃ b, run a = .ok b) :
    speedLoop gen run T D n_iter = .ok (items.map T, items.map D) := by
  unfold speedLoop
  rw [hg]
  have := speedLoop_go run T D n_iter hn items ([], []) h
  simpa using this

theorem speedLoop_error {α β : Type} {run : α → Py β} (T D : α → ℕ) {n_iter : ℕ} (hn : 0 < n_iter) (e : PyErr) (items : List α)
    (rest : List (Py α)) (it : Py α) (h : ∀ a ∈ items, ∃ b, run a = .ok b) (he : it.bind run = .error e) :
    speedLoop (items.map Except.ok ++ it :: rest) run T D n_iter = .error e := by
  unfold speedLoop
  rw [List.foldlM_append, speedLoop_go run T D n_iter hn items ([], []) h, py_ok_bind, List.foldlM_cons]
  cases it with
  | error e' =>
    have : e' = e := by simpa [Except.bind] using he
    subst this
    rfl
  | ok a =>
    rw [py_ok_bind, show run a = .error e from he]
    rfl

theorem speedLoop_zero {α β : Type} {run : α → Py β} (T D : α → ℕ) (a : α) (rest : List (Py α)) (b : β) (hb : run a = .ok b) :
    speedLoop (.ok a :: rest) run T D 0 = .error .zeroDivisionError := by
  unfold speedLoop
  rw [List.foldlM_cons, py_ok_bind, hb, py_ok_bind]
  rfl

theorem speedLoop_first {α β : Type} {run : α → Py β} (T D : α → ℕ) {n_iter : ℕ} (e : PyErr) (a : α) (rest : List (Py α))
    (he : run a = .error e) : speedLoop (.ok a :: rest) run T D n_iter = .error e := by
  unfold speedLoop
  rw [List.foldlM_cons, py_ok_bind, he]
  rfl

end Verif
