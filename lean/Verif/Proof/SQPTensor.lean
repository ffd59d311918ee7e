import Verif.Props.TensorSQP
import Verif.Proof.NLQTTensor
import Verif.Proof.ShootingTF
import Verif.Proof.AD

/-! The tensor code of `sqp_tf.py` computes the steps of the functional model. -/

namespace Verif

open Matrix

section Lqe
variable {n m : ℕ} {K β : Type} [Field K] [DecidableEq K]

omit [Field K] [DecidableEq K] in
theorem concat_axis {a b : Tens K} {x y : ℤ} (h : tfAxis a.shape.length x = tfAxis a.shape.length y) : a.concat b x = a.concat b y := by
  unfold Tens.concat
  rw [h]

omit [Field K] [DecidableEq K] in
theorem slice_axis {a : Tens K} {x y : ℤ} (h : tfAxis a.shape.length x = tfAxis a.shape.length y) (lo hi : ℕ) : a.slice x lo hi = a.slice y lo hi := by
  unfold Tens.slice
  rw [h]

theorem lqe_item {G : Matrix (Fin n) (Fin n) K} {c : Fin n → K} {A : Matrix (Fin m) (Fin n) K} {b : Fin m → K} {x : Fin n → K} {l : Fin m → K} :
    lqeSolve G c A b = .ok (x, l) ↔
      solveV ((fromBlocks G (-Aᵀ) A 0).submatrix finSumFinEquiv.symm finSumFinEquiv.symm) (Sum.elim (-c) b ∘ finSumFinEquiv.symm) =
        .ok (Sum.elim x l ∘ finSumFinEquiv.symm) := by
  have e : lqeSolve G c A b = .ok (x, l) ↔ jnpSolveV (fromBlocks G (-Aᵀ) A 0) (Sum.elim (-c) b) = .ok (Sum.elim x l) := by
    unfold lqeSolve
    dsimp only
    rw [bind_ok]
    constructor
    · rintro ⟨y, h1, h2⟩
      have h3 := Prod.mk.inj (Except.ok.inj h2)
      rw [h1, ← h3.1, ← h3.2]
      congr 1
      funext i
      cases i <;> rfl
    · intro h
      exact ⟨_, h, rfl⟩
  rw [e, jnpSolveV_ok, solveV_ok, det_submatrix_ne, submatrix_mulVec_equiv]
  refine and_congr_right fun _ => ?_
  have e2 : ((Sum.elim x l ∘ ⇑finSumFinEquiv.symm) ∘ ⇑(finSumFinEquiv (m := n) (n := m)).symm.symm) = Sum.elim x l := by
    funext i
    simp
  rw [e2]
  constructor
  · intro h; rw [h]
  · intro h
    funext i
    simpa using congrFun h (finSumFinEquiv i)

theorem lqe_items {bs : List β} {G : β → Matrix (Fin n) (Fin n) K} {c : β → Fin n → K} {A : β → Matrix (Fin m) (Fin n) K} {b : β → Fin m → K}
    {ys : List (Fin (n + m) → K)} :
    bs.mapM (fun x => solveV ((fromBlocks (G x) (-(A x)ᵀ) (A x) 0).submatrix finSumFinEquiv.symm finSumFinEquiv.symm)
      (Sum.elim (-c x) (b x) ∘ finSumFinEquiv.symm)) = .ok ys ↔
    bs.mapM (fun x => lqeSolve (G x) (c x) (A x) (b x)) = .ok (ys.map fun y => (fun i => y (finSumFinEquiv (.inl i)), fun i => y (finSumFinEquiv (.inr i)))) := by
  rw [mapM_ok_iff, mapM_ok_iff, List.forall₂_map_right_iff]
  have : ∀ (x : β) (y : Fin (n + m) → K), (solveV ((fromBlocks (G x) (-(A x)ᵀ) (A x) 0).submatrix finSumFinEquiv.symm finSumFinEquiv.symm)
      (Sum.elim (-c x) (b x) ∘ finSumFinEquiv.symm) = .ok y ↔
      lqeSolve (G x) (c x) (A x) (b x) = .ok (fun i => y (finSumFinEquiv (.inl i)), fun i => y (finSumFinEquiv (.inr i)))) := by
    intro x y
    rw [lqe_item]
    have : (Sum.elim (fun i => y (finSumFinEquiv (.inl i))) (fun i => y (finSumFinEquiv (.inr i))) ∘ ⇑finSumFinEquiv.symm) = y := by
      funext i
      obtain ⟨j, rfl⟩ := finSumFinEquiv.surjective i
      cases j <;> simp
    rw [this]
  simp only [this]

theorem lqe_rep {bs : List β} {tG tc tA tb : Tens K} {G : β → Matrix (Fin n) (Fin n) K} {c : β → Fin n → K} {A : β → Matrix (Fin m) (Fin n) K}
    {b : β → Fin m → K} (hG : tG.HM bs G) (hc : tc.HV bs c) (hA : tA.HM bs A) (hb : tb.HV bs b) (hm : 0 < m) :
    (∀ xs, bs.mapM (fun x => lqeSolve (G x) (c x) (A x) (b x)) = .ok xs →
      ∃ tx tl, tensLqeSolve tG tc tA tb = .ok (tx, tl) ∧ tx.HV xs (·.1) ∧ tl.HV xs (·.2)) ∧
    ∀ er, bs.mapM (fun x => lqeSolve (G x) (c x) (A x) (b x)) = .error er → ∃ er', tensLqeSolve tG tc tA tb = .error er' := by
  obtain ⟨b0, eb0, hb0⟩ : ∃ r, tb.select (-1) 0 = .ok r ∧ r.shape = [bs.length] := by
    obtain ⟨s, v⟩ := tb
    obtain ⟨h1, h2⟩ := hb
    dsimp only at h1 h2
    subst h1
    exact ⟨_, if_pos hm, rfl⟩
  have esb : tb.size (-1) = .ok m := by rw [Tens.size, hb.1]; rfl
  have esc : tc.size (-1) = .ok n := by rw [Tens.size, hc.1]; rfl
  have hZ : (Tens.const (b0.shape ++ [m, m]) (0 : K)).HM bs fun _ => (0 : Matrix (Fin m) (Fin m) K) := by
    rw [hb0]; exact zero_isMt _ _ _
  obtain ⟨At, eAt, hAt⟩ := hA.mT
  have hAn : (At.map (- ·)).HM bs fun x => -(A x)ᵀ := ⟨hAt.1, fun k hk i j => congrArg (- ·) (hAt.2 k hk i j)⟩
  obtain ⟨P1, e1, h1⟩ := Tens.IsMt.cols hG hAn
  obtain ⟨P2, e2, h2⟩ := Tens.IsMt.cols hA hZ
  obtain ⟨P, e3, h3⟩ := Tens.IsMt.rows h1 h2
  obtain ⟨w, e4, h4⟩ := Tens.IsVt.join hc.neg hb
  replace h3 := h3.congr (g := fun x => fromBlocks (G x) (-(A x)ᵀ) (A x) 0) rfl fun k _ _ => fromRows_fromCols_eq_fromBlocks _ _ _ _
  obtain ⟨q, e5, hsol, herr⟩ := solve_rep h3 h4
  simp only [sumE_refl] at hsol herr
  rw [concat_axis (y := -1) (by rw [hG.1]; rfl)] at e1
  rw [concat_axis (y := -1) (by rw [hA.1]; rfl)] at e2
  rw [concat_axis (y := -2) (by rw [h1.1]; rfl)] at e3
  rw [concat_axis (y := -1) (by rw [hc.neg.1]; rfl)] at e4
  have key : tensLqeSolve tG tc tA tb = (do
      let xlam ← (← P.solve q).select (-1) 0
      let x ← xlam.slice (-1) 0 n
      let lam ← xlam.slice (-1) n (← xlam.size (-1))
      return (x, lam)) := by
    unfold tensLqeSolve
    refine bstep eb0 (bstep esb (bstep esb (bstep eAt (bstep e1 (bstep e2 (bstep e3 (bstep e4 (bstep e5 ?_))))))))
    rw [esc]
    rfl
  constructor
  · intro xs hxs
    have hys := (lqe_items (ys := xs.map fun p => Sum.elim p.1 p.2 ∘ finSumFinEquiv.symm)).2 (by
      rw [hxs, List.map_map]
      congr 1
      refine (List.map_id' xs).symm.trans (List.map_congr_left fun p _ => ?_)
      simp)
    obtain ⟨r, y, e6, e7, hy⟩ := hsol _ hys
    have hy' := (hy.numbered (sumE (Equiv.refl (Fin n)) (Equiv.refl (Fin m)))).congr (cs := xs) (g := fun p => Sum.elim p.1 p.2) (by simp) (fun k h h' => by
      funext i
      simp [sumE_refl])
    obtain ⟨tx, e8, h8⟩ := hy'.fst
    obtain ⟨tl, e9, h9⟩ := hy'.snd
    have esy : y.size (-1) = .ok (n + m) := by rw [Tens.size, hy.1]; rfl
    rw [slice_axis (y := -1) (by rw [hy.1]; rfl)] at e8 e9
    refine ⟨tx, tl, ?_, h8, h9⟩
    rw [key]
    exact bstep e6 (bstep e7 (bstep e8 (bstep esy (bstep e9 rfl))))
  · intro er her
    rw [key]
    cases hq : bs.mapM (fun x => solveV ((fromBlocks (G x) (-(A x)ᵀ) (A x) 0).submatrix finSumFinEquiv.symm finSumFinEquiv.symm)
      (Sum.elim (-c x) (b x) ∘ finSumFinEquiv.symm)) with
    | ok ys =>
      rw [lqe_items.1 hq] at her
      cases her
    | error e =>
      rw [herr e hq]
      exact ⟨e, rfl⟩

end Lqe

/-! ### Derivatives -/

section AD
variable {n m d k : ℕ} {γ : Type}

theorem setItem_holds {ys : List (Fin n → ℝ)} {tx : Tens ℝ} (hx : tx.HV ys fun y => y) (k0 : ℕ) (v : Fin n → ℝ) :
    (tx.setItem k0 v).HV (ys.set k0 v) fun y => y := by
  refine ⟨by simpa [Tens.setItem] using hx.1, fun k hk i => ?_⟩
  have hk' : k < ys.length := by simpa using hk
  by_cases h : k = k0
  · subst h
    simp [Tens.setItem]
  · have := hx.2 k hk' i
    simp only [Tens.setItem, List.getD_cons_zero, h, if_false]
    rw [List.getElem_set_ne (Ne.symm h)]
    exact this

/-- The tape differentiates item by item. -/
theorem batchJac_rep {L : List γ} {px : γ → Fin n → ℝ} {tx : Tens ℝ} {F : Tens ℝ → Py (Tens ℝ)} {G : (Fin n → ℝ) → γ → Fin k → ℝ}
    (hx : tx.HV L px)
    (hF : ∀ (ys : List (Fin n → ℝ)) (ty : Tens ℝ), ys.length = L.length → ty.HV ys (fun y => y) →
      ∃ r, F ty = .ok r ∧ r.HV (ys.zip L) fun a => G a.1 a.2)
    (hd : ∀ a ∈ L, Differentiable ℝ fun x => G x a) :
    ∃ r, tensBatchJac F tx = .ok r ∧ r.HM L fun a => adJac (fun x => G x a) (px a) := by
  have hx' : tx.HV (L.map px) fun y => y := hx.remap (by simp)
  obtain ⟨r, er, hr⟩ := hF (L.map px) tx (by simp) hx'
  have hs : r.shape = [L.length, k] := by simpa using hr.1
  obtain ⟨s, v⟩ := tx
  obtain ⟨s', v'⟩ := r
  have h1 : s = [L.length, n] := hx.1
  have h3 : s' = [L.length, k] := hs
  subst h1 h3
  refine ⟨_, bstep er (if_pos rfl), rfl, fun k0 hk i j => ?_⟩
  dsimp only [Equiv.refl_apply]
  refine (dif_pos j.2).trans ?_
  have hrow : (fun j : Fin n => v [k0, j.val]) = px L[k0] := funext fun j => hx.2 k0 hk j
  have hfun : (fun w : Fin n → ℝ => ∑ b ∈ Finset.range L.length,
      tensVal (F ((⟨[L.length, n], v⟩ : Tens ℝ).setItem k0 w)) [b, i.val]) =
      fun w => G w L[k0] i + ∑ b ∈ (Finset.range L.length).erase k0, if h : b < L.length then G (px L[b]) L[b] i else 0 := by
    funext w
    obtain ⟨r', er', hr'⟩ := hF ((L.map px).set k0 w) _ (by simp) (setItem_holds hx' k0 w)
    rw [er']
    have hval : ∀ b (hb : b < L.length), r'.val [b, i.val] = G (((L.map px).set k0 w)[b]'(by simpa using hb)) L[b] i := by
      intro b hb
      refine (hr'.2 b (by simpa using hb) i).trans ?_
      dsimp only
      rw [List.getElem_zip]
    rw [← Finset.add_sum_erase _ _ (Finset.mem_range.2 hk)]
    congr 1
    · show r'.val [k0, i.val] = _
      rw [hval k0 hk]
      simp
    · refine Finset.sum_congr rfl fun b hb => ?_
      have hb1 : b < L.length := Finset.mem_range.1 (Finset.mem_erase.1 hb).2
      have hb2 : b ≠ k0 := (Finset.mem_erase.1 hb).1
      rw [dif_pos hb1]
      show r'.val [b, i.val] = _
      rw [hval b hb1, List.getElem_set_ne (Ne.symm hb2)]
      simp
  have e := congrFun (adJac_row (hd L[k0] (List.getElem_mem hk) (px L[k0])) i) j
  rw [← e]
  simp only [List.getD_cons_zero, List.getD_cons_succ, hfun, hrow]
  rw [fderiv_add_const]
  rfl

theorem Tens.HS.colS {t : Tens ℝ} {L : List γ} {f : γ → ℝ} (h : t.HS L f) :
    ∃ r, t.expandDims (-1) = .ok r ∧ r.HV L fun a (_ : Fin 1) => f a := by
  obtain ⟨s, v⟩ := t
  obtain ⟨h1, h2⟩ := h
  dsimp only at h1 h2
  subst h1
  exact ⟨_, rfl, rfl, fun k hk i => h2 k hk⟩

theorem Tens.HS.uncolS {t : Tens ℝ} {L : List γ} {f : γ → Fin 1 → ℝ} (h : t.HV L f) :
    ∃ r, t.select (-1) 0 = .ok r ∧ r.HS L fun a => f a 0 := by
  obtain ⟨s, v⟩ := t
  obtain ⟨h1, h2⟩ := h
  dsimp only at h1 h2
  subst h1
  exact ⟨⟨[L.length], fun i => v (i.insertIdx 1 0)⟩, rfl, rfl, fun k hk => h2 k hk 0⟩

theorem Tens.IsMt.row0 {t : Tens ℝ} {L : List γ} {f : γ → Matrix (Fin 1) (Fin n) ℝ} (h : t.HM L f) :
    ∃ r, t.select (-2) 0 = .ok r ∧ r.HV L fun a => f a 0 := by
  obtain ⟨s, v⟩ := t
  obtain ⟨h1, h2⟩ := h
  dsimp only at h1 h2
  subst h1
  exact ⟨⟨[L.length, n], fun i => v (i.insertIdx 1 0)⟩, rfl, rfl, fun k hk j => h2 k hk 0 j⟩

theorem Tens.IsVt.sumLast {t : Tens ℝ} {L : List γ} {f : γ → Fin n → ℝ} (h : t.HV L f) :
    ∃ r, t.sumLast = .ok r ∧ r.HS L fun a => ∑ i, f a i := by
  obtain ⟨s, v⟩ := t
  obtain ⟨h1, h2⟩ := h
  dsimp only at h1 h2
  subst h1
  refine ⟨_, rfl, rfl, fun k hk => ?_⟩
  refine Eq.trans (Finset.sum_range _) (Finset.sum_congr rfl fun i _ => ?_)
  exact h2 k hk i

variable {f : (Fin n → ℝ) → (Fin d → ℝ) → ℝ} {c : (Fin n → ℝ) → (Fin d → ℝ) → Fin m → ℝ} {fn con : TensFun ℝ}

theorem ProgTens.fOn (h : ProgTens f c fn con) {L : List γ} {px : γ → Fin n → ℝ} {pp : γ → Fin d → ℝ} {tx tp : Tens ℝ} (hx : tx.HV L px)
    (hp : tp.HV L pp) : ∃ r, fn tx tp = .ok r ∧ r.HS L fun a => f (px a) (pp a) := by
  obtain ⟨r, e, h1, h2⟩ := h.f (L.map fun a => (px a, pp a)) tx tp (hx.remap (by simp)) (hp.remap (by simp))
  exact ⟨r, e, by simpa using h1, fun k hk => (h2 k (by simpa using hk)).trans (by rw [List.getElem_map])⟩

theorem ProgTens.cOn (h : ProgTens f c fn con) {L : List γ} {px : γ → Fin n → ℝ} {pp : γ → Fin d → ℝ} {tx tp : Tens ℝ} (hx : tx.HV L px)
    (hp : tp.HV L pp) : ∃ r, con tx tp = .ok r ∧ r.HV L fun a => c (px a) (pp a) := by
  obtain ⟨r, e, h1⟩ := h.c (L.map fun a => (px a, pp a)) tx tp (hx.remap (by simp)) (hp.remap (by simp))
  exact ⟨r, e, h1.remap (by simp)⟩

theorem zipFst {ys : List (Fin n → ℝ)} {L : List γ} {ty : Tens ℝ} (h : ty.HV ys fun y => y) (hl : ys.length = L.length) :
    ty.HV (ys.zip L) fun a => a.1 := Tens.IsVt.zipL h hl

theorem adGrad_one {g : (Fin n → ℝ) → ℝ} {x : Fin n → ℝ} (h : DifferentiableAt ℝ g x) :
    adJac (fun x (_ : Fin 1) => g x) x 0 = adGrad g x :=
  (adJac_row (con := fun x (_ : Fin 1) => g x) (differentiableAt_pi.2 fun _ => h) 0).symm

theorem funGrad_rep (h : ProgTens f c fn con) (hf : ∀ p, ContDiff ℝ 2 fun x => f x p) {L : List γ} {px : γ → Fin n → ℝ} {pp : γ → Fin d → ℝ}
    {tx tp : Tens ℝ} (hx : tx.HV L px) (hp : tp.HV L pp) :
    ∃ v g, tensFunValueGrad fn tx tp = .ok (v, g) ∧ v.HS L (fun a => f (px a) (pp a)) ∧ g.HV L fun a => adGrad (fun x => f x (pp a)) (px a) := by
  have hd : ∀ p, Differentiable ℝ fun x => f x p := fun p => (hf p).differentiable (by norm_num)
  have hF : ∀ (ys : List (Fin n → ℝ)) (ty : Tens ℝ), ys.length = L.length → ty.HV ys (fun y => y) →
      ∃ r, tensFunTarget fn tp ty = .ok r ∧ r.HV (ys.zip L) fun a (_ : Fin 1) => f a.1 (pp a.2) := by
    intro ys ty hl hy
    obtain ⟨r, e1, h1⟩ := h.fOn (zipFst hy hl) (Tens.IsVt.zipR hp hl)
    obtain ⟨r', e2, h2⟩ := h1.colS
    exact ⟨r', bstep e1 e2, h2⟩
  obtain ⟨r, e1, h1⟩ := h.fOn hx hp
  obtain ⟨r', e2, h2⟩ := h1.colS
  obtain ⟨j, e3, h3⟩ := batchJac_rep (G := fun x a (_ : Fin 1) => f x (pp a)) hx hF fun a _ => differentiable_pi.2 fun _ => hd (pp a)
  obtain ⟨g, e4, h4⟩ := h3.row0
  obtain ⟨v, e5, h5⟩ := Tens.HS.uncolS h2
  exact ⟨v, g, bstep (bstep e1 e2) (bstep e3 (bstep e4 (bstep e5 rfl))), h5, h4.fcongr fun a _ => adGrad_one (hd (pp a) (px a))⟩

theorem conJac_rep (h : ProgTens f c fn con) (hc : ∀ p, ContDiff ℝ 2 fun x => c x p) {L : List γ} {px : γ → Fin n → ℝ} {pp : γ → Fin d → ℝ}
    {tx tp : Tens ℝ} (hx : tx.HV L px) (hp : tp.HV L pp) :
    ∃ v g, tensConValueJac con tx tp = .ok (v, g) ∧ v.HV L (fun a => c (px a) (pp a)) ∧ g.HM L fun a => adJac (fun x => c x (pp a)) (px a) := by
  obtain ⟨r, e1, h1⟩ := h.cOn hx hp
  obtain ⟨j, e3, h3⟩ := batchJac_rep (F := fun x => con x tp) (G := fun x a => c x (pp a)) hx
    (fun ys ty hl hy => h.cOn (zipFst hy hl) (Tens.IsVt.zipR hp hl)) fun a _ => (hc (pp a)).differentiable (by norm_num)
  exact ⟨r, j, bstep e1 (bstep e3 rfl), h1, h3⟩

theorem lag_contDiff (hf : ∀ p, ContDiff ℝ 2 fun x => f x p) (hc : ∀ p, ContDiff ℝ 2 fun x => c x p) (p : Fin d → ℝ) (lam : Fin m → ℝ) :
    ContDiff ℝ 2 fun x => f x p - ∑ i, lam i * c x p i :=
  (hf p).sub (ContDiff.sum fun i _ => contDiff_const.mul ((contDiff_pi.1 (hc p)) i))

theorem lagTarget_rep (h : ProgTens f c fn con) {L : List γ} {px : γ → Fin n → ℝ} {pl : γ → Fin m → ℝ} {pp : γ → Fin d → ℝ}
    {tx tl tp : Tens ℝ} (hx : tx.HV L px) (hl : tl.HV L pl) (hp : tp.HV L pp) :
    ∃ r, tensLagTarget fn con tl tp tx = .ok r ∧ r.HV L fun a (_ : Fin 1) => f (px a) (pp a) - ∑ i, pl a i * c (px a) (pp a) i := by
  obtain ⟨r, e1, h1⟩ := h.fOn hx hp
  obtain ⟨r2, e2, h2⟩ := h.cOn hx hp
  obtain ⟨r3, e3, h3⟩ := Tens.IsVt.bin (· * ·) hl h2
  obtain ⟨r4, e4, h4⟩ := Tens.IsVt.sumLast h3
  obtain ⟨r5, e5, h5⟩ := h1.bin (· - ·) h4
  obtain ⟨r6, e6, h6⟩ := h5.colS
  exact ⟨r6, bstep e1 (bstep e2 (bstep e3 (bstep e4 (bstep e5 e6)))), h6⟩

theorem lagGrad_rep (h : ProgTens f c fn con) (hf : ∀ p, ContDiff ℝ 2 fun x => f x p) (hc : ∀ p, ContDiff ℝ 2 fun x => c x p) {L : List γ}
    {px : γ → Fin n → ℝ} {pl : γ → Fin m → ℝ} {pp : γ → Fin d → ℝ} {tx tl tp : Tens ℝ} (hx : tx.HV L px) (hl : tl.HV L pl) (hp : tp.HV L pp) :
    ∃ r, tensLagGrad fn con tl tp tx = .ok r ∧ r.HV L fun a => adGrad (fun x => f x (pp a) - ∑ i, pl a i * c x (pp a) i) (px a) := by
  have hd := fun a : γ => (lag_contDiff hf hc (pp a) (pl a)).differentiable (by norm_num)
  obtain ⟨j, e3, h3⟩ := batchJac_rep (F := tensLagTarget fn con tl tp) (G := fun x a (_ : Fin 1) => f x (pp a) - ∑ i, pl a i * c x (pp a) i) hx
    (fun ys ty he hy => lagTarget_rep h (zipFst hy he) (Tens.IsVt.zipR hl he) (Tens.IsVt.zipR hp he)) fun a _ => differentiable_pi.2 fun _ => hd a
  obtain ⟨g, e4, h4⟩ := h3.row0
  exact ⟨g, bstep e3 e4, h4.fcongr fun a _ => adGrad_one (hd a (px a))⟩

theorem lagHess_rep (h : ProgTens f c fn con) (hf : ∀ p, ContDiff ℝ 2 fun x => f x p) (hc : ∀ p, ContDiff ℝ 2 fun x => c x p) {L : List γ}
    {px : γ → Fin n → ℝ} {pl : γ → Fin m → ℝ} {pp : γ → Fin d → ℝ} {tx tl tp : Tens ℝ} (hx : tx.HV L px) (hl : tl.HV L pl) (hp : tp.HV L pp) :
    ∃ v g H, tensLagValueGradHess fn con tx tl tp = .ok (v, g, H) ∧
      v.HS L (fun a => f (px a) (pp a) - ∑ i, pl a i * c (px a) (pp a) i) ∧
      g.HV L (fun a => adGrad (fun x => f x (pp a) - ∑ i, pl a i * c x (pp a) i) (px a)) ∧
      H.HM L fun a => adHess (fun x => f x (pp a) - ∑ i, pl a i * c x (pp a) i) (px a) := by
  obtain ⟨r, e1, h1⟩ := lagTarget_rep h hx hl hp
  obtain ⟨g, e2, h2⟩ := lagGrad_rep h hf hc hx hl hp
  obtain ⟨H, e3, h3⟩ := batchJac_rep (F := tensLagGrad fn con tl tp) (G := fun x a => adGrad (fun x => f x (pp a) - ∑ i, pl a i * c x (pp a) i) x) hx
    (fun ys ty he hy => lagGrad_rep h hf hc (zipFst hy he) (Tens.IsVt.zipR hl he) (Tens.IsVt.zipR hp he))
    fun a _ => adGrad_diff (lag_contDiff hf hc (pp a) (pl a))
  obtain ⟨v, e4, h4⟩ := Tens.HS.uncolS h1
  exact ⟨v, g, H, bstep e1 (bstep e2 (bstep e3 (bstep e4 rfl))), h4, h2, h3⟩

/-! ### The iteration -/

/-- The parts of the carry. -/
structure CarryTens (st : List ((Fin n → ℝ) × (Fin m → ℝ))) (tx tl : Tens ℝ) : Prop where
  x : tx.HV st (·.1)
  lam : tl.HV st (·.2)

theorem sqpBody_rep (h : ProgTens f c fn con) (hf : ∀ p, ContDiff ℝ 2 fun x => f x p) (hc : ∀ p, ContDiff ℝ 2 fun x => c x p) (hm : 0 < m)
    {st : List ((Fin n → ℝ) × (Fin m → ℝ))} {pars : List (Fin d → ℝ)} (hl : st.length = pars.length) {tx tl tp : Tens ℝ} (hs : CarryTens st tx tl)
    (hp : tp.HV pars fun p => p) (cr cr' : ℝ) :
    (∀ st' c', tfSqpBody f c pars (st, cr) = .ok (st', c') →
      st'.length = st.length ∧ ∃ tx' tl', tensSqpBody fn con tp (tx, tl, cr') = .ok (tx', tl', c') ∧ CarryTens st' tx' tl') ∧
    ∀ er, tfSqpBody f c pars (st, cr) = .error er → ∃ er', tensSqpBody fn con tp (tx, tl, cr') = .error er' := by
  have hx := Tens.IsVt.zipL hs.x hl
  have hlam := Tens.IsVt.zipL hs.lam hl
  have hp' := Tens.IsVt.zipR hp hl
  obtain ⟨v1, Jf, e1, -, hJf⟩ := funGrad_rep h hf hx hp'
  obtain ⟨cv, Jc, e2, hcv, hJc⟩ := conJac_rep h hc hx hp'
  obtain ⟨v3, Jl, HL, e3, -, hJl, hHL⟩ := lagHess_rep h hf hc hx hlam hp'
  obtain ⟨hok, herr⟩ := lqe_rep hHL hJf hJc hcv.neg hm
  have key : tensSqpBody fn con tp (tx, tl, cr') = (do
      let (p, hlam) ← tensLqeSolve HL Jf Jc (cv.map (- ·))
      let x ← tx.bin (· + ·) p
      return (x, hlam, Jl.norm)) := by
    unfold tensSqpBody
    exact bstep e1 (bstep e2 (bstep e3 rfl))
  have hrow := fun a : ((Fin n → ℝ) × (Fin m → ℝ)) × (Fin d → ℝ) => (rfl : (do
      let x := a.1.1
      let lam := a.1.2
      let par := a.2
      let (_, Jf) := funValueGrad f x par
      let (cc, Jc) := conValueJac c x par
      let (_, Jl, HL) := lagValueGradHess f c x lam par
      let (p, hlam) ← lqeSolve HL Jf Jc (-cc)
      return ((x + p, hlam), Jl) : Py (((Fin n → ℝ) × (Fin m → ℝ)) × (Fin n → ℝ))) = (do
      let q ← lqeSolve (adHess (fun x => f x a.2 - ∑ i, a.1.2 i * c x a.2 i) a.1.1) (adGrad (fun x => f x a.2) a.1.1)
        (adJac (fun x => c x a.2) a.1.1) (-c a.1.1 a.2)
      return (fun (a : ((Fin n → ℝ) × (Fin m → ℝ)) × (Fin d → ℝ)) (q : (Fin n → ℝ) × (Fin m → ℝ)) =>
        ((a.1.1 + q.1, q.2), adGrad (fun x => f x a.2 - ∑ i, a.1.2 i * c x a.2 i) a.1.1)) a q))
  cases hq : (st.zip pars).mapM (fun a => lqeSolve (adHess (fun x => f x a.2 - ∑ i, a.1.2 i * c x a.2 i) a.1.1) (adGrad (fun x => f x a.2) a.1.1)
        (adJac (fun x => c x a.2) a.1.1) (-c a.1.1 a.2)) with
  | error e =>
    have hz := mapM_bind_err hrow hq
    constructor
    · intro st' c' h'
      rw [tfSqpBody, hz] at h'
      cases h'
    · intro er _
      obtain ⟨e', he'⟩ := herr e hq
      rw [key, he']
      exact ⟨e', rfl⟩
  | ok xs =>
    obtain ⟨hxl, hz⟩ := mapM_bind_ok hrow hq
    obtain ⟨p, tl', e4, h4, h5⟩ := hok xs hq
    have hlen : (st.zip pars).length = xs.length := hxl.symm
    obtain ⟨x', e6, h6⟩ := Tens.IsVt.add (Tens.IsVt.zipL hx hlen) (Tens.IsVt.zipR h4 hlen)
    constructor
    · intro st' c' h'
      rw [tfSqpBody, hz] at h'
      obtain ⟨rfl, rfl⟩ := Prod.mk.inj (Except.ok.inj h')
      refine ⟨by simp [hxl, hl], x', tl', ?_, ?_, ?_⟩
      · rw [key]
        refine bstep e4 (bstep e6 ?_)
        show Except.ok _ = Except.ok _
        congr 3
        unfold Tens.norm
        have hsq : (Jl.map (· ^ 2)).HV (st.zip pars) fun a i => adGrad (fun x => f x a.2 - ∑ i, a.1.2 i * c x a.2 i) a.1.1 i ^ 2 :=
          ⟨hJl.1, fun k hk i => congrArg (· ^ 2) (hJl.2 k hk i)⟩
        rw [reduceSum_batch hsq]
        congr 2
        refine List.ext_getElem (by simp [hxl, hl]) fun k _ _ => ?_
        simp
      · refine h6.congr (by simp [hxl, hl]) fun k _ _ => ?_
        simp
      · refine h5.congr (by simp [hxl, hl]) fun k _ _ => ?_
        simp
    · intro er h'
      rw [tfSqpBody, hz] at h'
      cases h'

theorem sqpScan_rep (h : ProgTens f c fn con) (hf : ∀ p, ContDiff ℝ 2 fun x => f x p) (hc : ∀ p, ContDiff ℝ 2 fun x => c x p) (hm : 0 < m)
    {pars : List (Fin d → ℝ)} {tp : Tens ℝ} (hp : tp.HV pars fun p => p) (its : List ℕ) :
    ∀ {st : List ((Fin n → ℝ) × (Fin m → ℝ))} {tx tl : Tens ℝ} (cr : ℝ), st.length = pars.length → CarryTens st tx tl →
    (∀ l, tfScanFwdM (fun carry (_ : ℕ) => tfSqpBody f c pars carry) (st, cr) its = .ok l →
      ∃ r, tfScanFwdM (fun carry (_ : ℕ) => tensSqpBody fn con tp carry) (tx, tl, cr) its = .ok r ∧
        List.Forall₂ (fun (t : Tens ℝ × Tens ℝ × ℝ) (s : List ((Fin n → ℝ) × (Fin m → ℝ)) × ℝ) =>
          s.1.length = pars.length ∧ CarryTens s.1 t.1 t.2.1 ∧ t.2.2 = s.2) r l) ∧
    ∀ er, tfScanFwdM (fun carry (_ : ℕ) => tfSqpBody f c pars carry) (st, cr) its = .error er →
      ∃ er', tfScanFwdM (fun carry (_ : ℕ) => tensSqpBody fn con tp carry) (tx, tl, cr) its = .error er' := by
  induction its with
  | nil =>
    intro st tx tl cr hl hs
    exact ⟨(fun l hl' => by cases hl'; exact ⟨[], rfl, .nil⟩), fun er he => by cases he⟩
  | cons a its ih =>
    intro st tx tl cr hl hs
    obtain ⟨h1, h2⟩ := sqpBody_rep h hf hc hm hl hs hp cr cr
    rw [tfScanFwdM, tfScanFwdM]
    cases hb : tfSqpBody f c pars (st, cr) with
    | error e =>
      obtain ⟨e', he'⟩ := h2 e hb
      exact ⟨(fun l hl' => by cases hl'), fun er he => ⟨e', by rw [he']; rfl⟩⟩
    | ok b =>
      obtain ⟨st', c'⟩ := b
      obtain ⟨hlen, tx', tl', e1, hs'⟩ := h1 st' c' hb
      obtain ⟨g1, g2⟩ := ih c' (hlen.trans hl) hs'
      rw [e1]
      simp only [tens_bind]
      cases hr : tfScanFwdM (fun carry (_ : ℕ) => tfSqpBody f c pars carry) (st', c') its with
      | error e =>
        obtain ⟨e', he'⟩ := g2 e hr
        exact ⟨(fun l hl' => by cases hl'), fun er he => ⟨e', by rw [he']; rfl⟩⟩
      | ok l =>
        obtain ⟨r, e2, hfor⟩ := g1 l hr
        refine ⟨(fun l' hl' => ?_), fun er he => by cases he⟩
        cases hl'
        exact ⟨_, by rw [e2]; rfl, .cons ⟨hlen.trans hl, hs', rfl⟩ hfor⟩

theorem stack_runs {B : ℕ} {l : List (Tens ℝ)} {L : List (List (Fin n → ℝ))} (d : List ℕ → ℝ)
    (h : List.Forall₂ (fun (t : Tens ℝ) (x : List (Fin n → ℝ)) => x.length = B ∧ t.HV x fun y => y) l L) :
    ∃ r, Tens.stack [B, n] d l = .ok r ∧ r.HoldsRuns B L := by
  have hs : (l.all fun t => t.shape = [B, n]) = true := by
    rw [List.all_eq_true]
    intro t ht
    obtain ⟨i, hi, rfl⟩ := List.getElem_of_mem ht
    have := h.get hi (by rw [← h.length_eq]; exact hi)
    exact decide_eq_true (this.2.1.trans (congrArg (fun b => [b, n]) this.1))
  have hl := h.length_eq
  refine ⟨_, if_pos hs, by rw [hl], ?_, fun k hk b hb i => ?_⟩
  · intro x hx
    obtain ⟨i, hi, rfl⟩ := List.getElem_of_mem hx
    exact (h.get (by rw [hl]; exact hi) hi).1
  · have hk' : k < l.length := by rw [hl]; exact hk
    have := (h.get hk' hk).2.2 b hb i
    simpa [hk'] using this

theorem localEqFast_rep (h : ProgTens f c fn con) (hf : ∀ p, ContDiff ℝ 2 fun x => f x p) (hc : ∀ p, ContDiff ℝ 2 fun x => c x p) (hm : 0 < m)
    {x0 : List (Fin n → ℝ)} {pars : List (Fin d → ℝ)} {tx tp : Tens ℝ} (hl : x0.length = pars.length) (hx : tx.HV x0 fun x => x)
    (hp : tp.HV pars fun p => p) (num_iter : ℕ) :
    (∀ l, tfLocalEqFast f c x0 pars num_iter = .ok l →
      ∃ xs lams, tensLocalEqFast fn con tx tp num_iter = .ok (xs, lams, l.map (·.2)) ∧
        xs.HoldsRuns pars.length (l.map fun s => s.1.map (·.1)) ∧ lams.HoldsRuns pars.length (l.map fun s => s.1.map (·.2))) ∧
    ∀ er, tfLocalEqFast f c x0 pars num_iter = .error er → ∃ er', tensLocalEqFast fn con tx tp num_iter = .error er' := by
  obtain ⟨c0, e1, h1⟩ := h.cOn (Tens.IsVt.zipL hx hl) (Tens.IsVt.zipR hp hl)
  have hsh : c0.shape = [pars.length, m] := by simpa [hl] using h1.1
  have hst : CarryTens (x0.map fun x => (x, (0 : Fin m → ℝ))) tx (Tens.const c0.shape 0) := by
    constructor
    · exact hx.remap (by rw [List.map_map]; rfl)
    · exact ⟨by simpa [hl, Tens.const] using hsh, fun k hk i => by simp [Tens.const]⟩
  obtain ⟨g1, g2⟩ := sqpScan_rep h hf hc hm hp (List.range num_iter) 1 (by simpa using hl) hst
  constructor
  · intro l hll
    obtain ⟨r, e2, hfor⟩ := g1 l hll
    obtain ⟨xs, e3, h3⟩ := stack_runs (B := pars.length) (l := r.map (·.1)) (L := l.map fun s => s.1.map (·.1)) tx.val (by
      rw [List.forall₂_map_left_iff, List.forall₂_map_right_iff]
      exact hfor.imp fun t s hts => ⟨by simpa using hts.1, hts.2.1.x.remap (by simp)⟩)
    obtain ⟨ls, e4, h4⟩ := stack_runs (B := pars.length) (l := r.map (·.2.1)) (L := l.map fun s => s.1.map (·.2)) (Tens.const c0.shape (0 : ℝ)).val (by
      rw [List.forall₂_map_left_iff, List.forall₂_map_right_iff]
      exact hfor.imp fun t s hts => ⟨by simpa using hts.1, hts.2.1.lam.remap (by simp)⟩)
    have hcr : r.map (·.2.2) = l.map (·.2) := by
      refine List.ext_getElem (by simpa using hfor.length_eq) fun k hk hk' => ?_
      simpa using (hfor.get (by simpa using hk) (by simpa using hk')).2.2
    have hxs : tx.shape = [pars.length, n] := by simpa [hl] using hx.1
    rw [← hxs] at e3
    rw [← hsh] at e4
    refine ⟨xs, ls, ?_, h3, h4⟩
    unfold tensLocalEqFast
    refine bstep e1 (bstep e2 (bstep e3 (bstep e4 ?_)))
    rw [hcr]
    rfl
  · intro er her
    obtain ⟨er', he'⟩ := g2 er her
    refine ⟨er', ?_⟩
    unfold tensLocalEqFast
    refine bstep e1 ?_
    exact (congrArg (· >>= _) he').trans rfl

end AD

end Verif
