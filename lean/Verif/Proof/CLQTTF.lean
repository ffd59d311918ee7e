import Verif.Proof.PyRel
import Verif.Proof.CLQTPackTF
import Verif.Proof.CLQTPar
import Verif.Proof.CLQTFwdBwd
import Verif.Proof.LQTTF

/-! The continuous-time tracker in TensorFlow: comparison with numpy. -/

namespace Verif

open Matrix

theorem PyRel.and_left {α β : Type} {d : Bool} {R : α → β → Prop} {a : Py α} {b : Py β} {Q : α → Prop} (h : PyRel d R a b)
    (hQ : ∀ x, a = .ok x → Q x) : PyRel d (fun x y => R x y ∧ Q x) a b := by
  cases d
  · intro y hy
    obtain ⟨x, h1, h2⟩ := h y hy
    exact ⟨x, h1, h2, hQ x h1⟩
  · intro x hx
    obtain ⟨y, h1, h2⟩ := h x hx
    exact ⟨y, h1, h2, hQ x hx⟩

theorem forall₂_map_range {β : Type} (f : ℕ → β) (N : ℕ) :
    List.Forall₂ (fun (k : ℕ) (t : β) => t = f k) (List.range N) ((List.range N).map f) := by
  rw [List.forall₂_map_right_iff, List.forall₂_same]
  exact fun _ _ => rfl

theorem forall₂_map_range' {β : Type} {R : ℕ → β → Prop} (f : ℕ → β) {N : ℕ} (h : ∀ k < N, R k (f k)) :
    List.Forall₂ R (List.range N) ((List.range N).map f) := by
  rw [List.forall₂_map_right_iff, List.forall₂_same]
  exact fun k hk => h k (List.mem_range.1 hk)

variable {n m : ℕ} {K : Type} [Field K] [LinearOrder K]

/-- The linear solves with `U` by Cholesky and LU factorisation are related. -/
def CLQT.SolvRel (P : CLQT n m K) (d : Bool) : Prop :=
  ∀ t, PyRel d Eq (solvePos (P.U t) (P.L t)ᵀ) (solve (P.U t) (P.L t)ᵀ)

theorem rk4_rel {X Q : Type} [AddCommGroup X] [Module K X] {d : Bool} {f : X → K → Py X} {g : X → K → Q → Py X} {p : Q}
    (h : ∀ x t, PyRel d Eq (f x t) (g x t p)) (dt : K) (x : X) (t : K) : PyRel d Eq (rk4T f dt x t) (rk4TF g dt x t p) := by
  have e : (1 / 2) * dt = dt / 2 := by ring
  unfold rk4T rk4TF
  rw [e]
  exact (h _ _).bindEq fun _ => (h _ _).bindEq fun _ => (h _ _).bindEq fun _ => (h _ _).bindEq fun _ => PyRel.refl _

section Rel
variable {P : CLQT n m K} {d : Bool}

theorem CLQT.SolvRel.riccati (h : P.SolvRel d) (x : Matrix (Fin n) (Fin (n + 1)) K) (t : K) :
    PyRel d Eq (P.riccatiOdeF x t) (P.tfRiccatiF x t ()) := by
  unfold CLQT.riccatiOdeF CLQT.tfRiccatiF
  refine (h t).bindEq fun X => PyRel.of_eq ?_
  show (Except.ok _ : Py _) = Except.ok _
  rw [packSvTF_eq]
  show (Except.ok (packSv _ _) : Py _) = Except.ok (packSv _ _)
  congr 2
  · simp only [unpackSvTF, unpackSv, neg_mul]
  · simp only [unpackSvTF, unpackSv, neg_mulVec, mulVec_mulVec, Matrix.mul_assoc]

theorem CLQT.SolvRel.abc (h : P.SolvRel d) (x : Matrix (Fin n) (Fin (2 * n + 1)) K) (t : K) :
    PyRel d Eq (P.fwdbwdOdeF x t) (P.tfAbcF x t ()) := by
  unfold CLQT.fwdbwdOdeF CLQT.tfAbcF
  refine (h t).bindEq fun X => PyRel.of_eq ?_
  show (Except.ok _ : Py _) = Except.ok _
  rw [packABCTF_eq]
  show (Except.ok (packABC _ _ _) : Py _) = Except.ok (packABC _ _ _)
  congr 2
  simp only [unpackABCTF, unpackABC, mulVec_mulVec, Matrix.mul_assoc]

theorem CLQT.SolvRel.elemBw (h : P.SolvRel d) (x : Matrix (Fin n) (Fin (3 * n + 2)) K) (t : K) :
    PyRel d Eq (P.bwpassBwOdeF x t) (P.tfElemBwF x t ()) := by
  unfold CLQT.bwpassBwOdeF CLQT.tfElemBwF
  refine (h t).bindEq fun X => PyRel.of_eq ?_
  show (Except.ok _ : Py _) = Except.ok _
  rw [packABCEJTF_eq]
  show (Except.ok (packABCEJ ⟨_, _, _, _, _⟩) : Py _) = Except.ok (packABCEJ ⟨_, _, _, _, _⟩)
  congr 3
  all_goals simp only [Matrix.neg_mul, neg_mulVec, mulVec_mulVec, Matrix.mul_assoc]

theorem CLQT.SolvRel.elemFw (h : P.SolvRel d) (x : Matrix (Fin n) (Fin (3 * n + 2)) K) (t : K) :
    PyRel d Eq (P.bwpassFwOdeF x t) (P.tfElemFwF x t ()) := by
  unfold CLQT.bwpassFwOdeF CLQT.tfElemFwF
  refine (h t).bindEq fun X => PyRel.of_eq ?_
  show (Except.ok _ : Py _) = Except.ok _
  rw [packABCEJTF_eq]
  show (Except.ok (packABCEJ ⟨_, _, _, _, _⟩) : Py _) = Except.ok (packABCEJ ⟨_, _, _, _, _⟩)
  congr 3
  · simp only [unpackABCEJTF, unpackABCEJ, mulVec_mulVec, Matrix.mul_assoc]
  · simp only [unpackABCEJTF, unpackABCEJ, mulVec_mulVec, Matrix.mul_assoc]

/-! ### Sequential backward pass -/

theorem CLQT.SolvRel.bwStep (h : P.SolvRel d) (dt t0 : K) (st : BwState n m K) (c : TCarry n m K) (hS : st.S = c.S)
    (hv : st.v = c.v) (k : ℕ) : PyRel d (fun st' c' => st' = ⟨c'.S, c'.v, st.Kx_list ++ [c'.Kx],
      st.d_list ++ [c'.d], st.S_list ++ [c'.S], st.v_list ++ [c'.v]⟩)
      (P.bwStep dt t0 st k) (P.tfBwBody dt c (t0 + k * dt)) := by
  have et : t0 + (k + 1) * dt = t0 + k * dt + dt := by ring
  unfold CLQT.bwStep CLQT.tfBwBody
  dsimp only
  rw [et, packSvTF_eq, hS, hv]
  refine (rk4_rel (fun x t => h.riccati x t) _ _ _).bindEq fun x => (h _).bindEq fun X => PyRel.ok rfl

theorem CLQT.SolvRel.seqBackward (h : P.SolvRel d) (steps : ℕ) (dt t0 : K) (ST : Matrix (Fin n) (Fin n) K) (vT : Fin n → K) :
    PyRel d Eq (P.seqBackwardPass steps (some dt) (some t0) (some ST) (some vT)) (P.tfSeqBackward steps dt t0 ST vT) := by
  unfold CLQT.seqBackwardPass CLQT.tfSeqBackward
  rw [tfScanRev_foldlM]
  simp only [Option.getD_some, P.dtSeq_some]
  show PyRel d Eq (_ >>= _) (_ >>= _)
  refine PyRel.bind (R := fun (st : BwState n m K) (acc : List (TCarry n m K) × TCarry n m K) =>
    st.S = acc.2.S ∧ st.v = acc.2.v ∧ st.Kx_list = (acc.1.map TCarry.Kx).reverse ∧ st.d_list = (acc.1.map TCarry.d).reverse ∧
    st.S_list = ST :: (acc.1.map TCarry.S).reverse ∧ st.v_list = vT :: (acc.1.map TCarry.v).reverse) ?_ ?_
  · refine PyRel.foldlM (T := fun (k : ℕ) (t : K) => t = t0 + k * dt) ?_ ?_ (by simp)
    · rintro st acc k t ⟨h1, h2, h3, h4, h5, h6⟩ rfl
      have := (h.bwStep dt t0 st acc.2 h1 h2 k).bind (R' := fun (st : BwState n m K) (acc : List (TCarry n m K) × TCarry n m K) =>
        st.S = acc.2.S ∧ st.v = acc.2.v ∧ st.Kx_list = (acc.1.map TCarry.Kx).reverse ∧
        st.d_list = (acc.1.map TCarry.d).reverse ∧
        st.S_list = ST :: (acc.1.map TCarry.S).reverse ∧ st.v_list = vT :: (acc.1.map TCarry.v).reverse)
        (f := fun x => pure x) (g := fun b => pure (b :: acc.1, b)) (by
          rintro x y rfl
          exact PyRel.ok ⟨rfl, rfl, by simp [h3], by simp [h4], by simp [h5], by simp [h6]⟩)
      simpa using this
    · rw [List.forall₂_reverse_iff]
      exact forall₂_map_range _ _
  · rintro st acc ⟨h1, h2, h3, h4, h5, h6⟩
    refine PyRel.ok ?_
    simp [h3, h4, h5, h6]

/-! ### Sequential forward pass -/

omit [LinearOrder K] in
theorem CLQT.fwF_rel (P : CLQT n m K) [LinearOrder K] (u_zoh : Bool) (Kx : Matrix (Fin m) (Fin n) K) (dd : Fin m → K) (dt t : K)
    (x : Fin n → K) : rk4T (P.fwOdeF u_zoh Kx dd (-Kx *ᵥ x + dd)) dt x t =
      (if u_zoh then rk4TF P.tfFzoh dt x t (-(Kx *ᵥ x) + dd) else rk4TF P.tfFnoZoh dt x t (Kx, dd)) := by
  have e : (1 / 2) * dt = dt / 2 := by ring
  cases u_zoh
  · simp only [Bool.false_eq_true, if_false]
    unfold rk4T rk4TF
    simp only [CLQT.fwOdeF, CLQT.tfFnoZoh, Bool.false_eq_true, if_false, neg_mulVec, e]
  · simp only [if_true]
    unfold rk4T rk4TF
    simp only [CLQT.fwOdeF, CLQT.tfFzoh, if_true, neg_mulVec, e]

theorem forall₂_zip3 {α β γ : Type} {R : ℕ → α × β × γ → Prop} : ∀ {l1 : List α} {l2 : List β} {l3 : List γ} {N : ℕ}, l1.length = N →
    l2.length = N → l3.length = N →
    (∀ k a b c, l1[k]? = some a → l2[k]? = some b → l3[k]? = some c → R k (a, b, c)) →
    List.Forall₂ R (List.range N) (l1.zip (l2.zip l3)) := by
  intro l1 l2 l3 N h1 h2 h3 h
  rw [forall₂_get]
  refine ⟨by simp [h1, h2, h3], ?_⟩
  intro k a ha
  obtain ⟨hk, rfl⟩ := List.getElem?_eq_some_iff.1 ha
  simp only [List.length_range] at hk
  simp only [List.getElem_range]
  refine ⟨(l1[k], l2[k], l3[k]), by simp [h1, h2, h3, hk], h _ _ _ _ ?_ ?_ ?_⟩ <;> simp

theorem zip3_eq_map {α β γ : Type} {l1 : List α} {l2 : List β} {l3 : List γ} {f : ℕ → α × β × γ} {N : ℕ} (h1 : l1.length = N)
    (h2 : l2.length = N) (h3 : l3.length = N) (h : ∀ k a b c, l1[k]? = some a → l2[k]? = some b → l3[k]? = some c → f k = (a, b, c)) :
    l1.zip (l2.zip l3) = (List.range N).map f := by
  have := forall₂_zip3 (R := fun k x => f k = x) h1 h2 h3 h
  have h2 := (List.forall₂_map_left_iff (f := f) (R := Eq)).2 this
  exact (List.forall₂_eq_eq_eq ▸ h2).symm

theorem pyGet_some {β : Type} {l : List β} {k : ℕ} {a : β} (h : l[k]? = some a) : pyGet l k = .ok a := by
  rw [pyGet_eq, h]

theorem CLQT.tfSeqForward_rel (P : CLQT n m K) (d u_zoh : Bool) (x0 : Fin n → K) {Kxs : List (Matrix (Fin m) (Fin n) K)}
    {ds : List (Fin m → K)} (dt t0 : K) (hl : Kxs.length = ds.length) (h0 : ds ≠ []) :
    PyRel d (fun a b => a.swap = b) (P.seqForwardPass x0 Kxs ds (some dt) (some t0) u_zoh)
      (P.tfSeqForward x0 Kxs ds dt t0 u_zoh) := by
  unfold CLQT.seqForwardPass CLQT.tfSeqForward
  obtain ⟨u0, ds', rfl⟩ := List.exists_cons_of_ne_nil h0
  simp only [Option.getD_some, P.dtSeq_some, hl, ne_eq, not_true_eq_false, if_false]
  have hb : ∀ {α β : Type} (a : α) (f : α → Py β), ((Except.ok a : Py α) >>= f) = f a := fun _ _ => rfl
  rw [hb, show pyGet (u0 :: ds') 0 = .ok u0 from rfl, hb, tfScanFwdM_foldlM]
  rw [map_eq_pure_bind, bind_assoc]
  simp only [pure_bind]
  refine PyRel.bind (R := fun (st : List (Fin m → K) × List (Fin n → K) × (Fin n → K))
    (acc : List ((Fin n → K) × (Fin m → K)) × ((Fin n → K) × (Fin m → K))) =>
    st.1 = acc.1.map Prod.snd ∧ st.2.1 = x0 :: acc.1.map Prod.fst ∧ st.2.2 = acc.2.1) ?_ ?_
  · refine PyRel.foldlM (T := fun (k : ℕ) (i : K × Matrix (Fin m) (Fin n) K × (Fin m → K)) =>
      i.1 = t0 + k * dt ∧ pyGet Kxs k = .ok i.2.1 ∧ pyGet (u0 :: ds') k = .ok i.2.2) ?_ ?_ (by simp)
    · rintro st acc k ⟨t, Kx, dd⟩ ⟨h1, h2, h3⟩ ⟨rfl, h4, h5⟩
      simp only at h4 h5
      unfold CLQT.fwStep CLQT.tfFwBody
      simp only [h4, h5]
      rw [hb, hb, h3, P.fwF_rel]
      refine PyRel.bind (R := fun (x : Fin n → K) (y : (Fin n → K) × (Fin m → K)) => y = (x, -(Kx *ᵥ acc.2.1) + dd)) ?_ ?_
      · have := (PyRel.refl (d := d) (if u_zoh then rk4TF P.tfFzoh dt acc.2.1 (t0 + k * dt) (-(Kx *ᵥ acc.2.1) + dd) else
          rk4TF P.tfFnoZoh dt acc.2.1 (t0 + k * dt) (Kx, dd))).bind (f := pure) (g := fun x => pure (x, -(Kx *ᵥ acc.2.1) + dd))
          (R' := fun (x : Fin n → K) (y : (Fin n → K) × (Fin m → K)) => y = (x, -(Kx *ᵥ acc.2.1) + dd)) (by
            rintro x y rfl; exact PyRel.ok rfl)
        simpa using this
      · rintro x y rfl
        exact PyRel.ok ⟨by simp [h1, neg_mulVec], by simp [h2], rfl⟩
    · refine forall₂_zip3 (by simp [tfTimes]) hl rfl fun k t Kx dd h1 h2 h3 => ⟨?_, pyGet_some h2, pyGet_some h3⟩
      unfold tfTimes at h1
      rw [List.getElem?_map] at h1
      have hk : k < (u0 :: ds').length := by
        by_contra hc
        rw [List.getElem?_eq_none (by simp; simp at hc; omega)] at h1
        simp at h1
      rw [List.getElem?_range hk] at h1
      simpa using h1.symm
  · rintro st acc ⟨h1, h2, h3⟩
    exact PyRel.ok (by simp [h1, h2, Prod.swap])

/-! ### Sequential forward-backward pass -/

theorem CLQT.SolvRel.seqFwdBwd (h : P.SolvRel d) (steps : ℕ) (dt t0 : K) (x0 : Fin n → K) (A0 : Matrix (Fin n) (Fin n) K)
    (b0 : Fin n → K) (C0 : Matrix (Fin n) (Fin n) K) :
    PyRel d Eq (P.seqFwdBwdPass x0 steps (some dt) (some t0) (some A0) (some b0) (some C0))
      (P.tfSeqFwdBwd steps dt t0 A0 b0 C0) := by
  unfold CLQT.seqFwdBwdPass CLQT.tfSeqFwdBwd
  simp only [Option.getD_some, P.dtSeq_some]
  show PyRel d _ (_ >>= _) (_ >>= _)
  rw [tfScanFwdM_foldlM, map_eq_pure_bind, bind_assoc]
  simp only [pure_bind]
  refine PyRel.bind (R := fun (st : CAbc n K × AbcResult n K) (acc : List (CAbc n K) × CAbc n K) =>
    st.1 = acc.2 ∧ st.2 = ⟨A0 :: acc.1.map fun a => a.1, b0 :: acc.1.map fun a => a.2.1, C0 :: acc.1.map fun a => a.2.2⟩) ?_ ?_
  · refine PyRel.foldlM (T := fun (k : ℕ) (t : K) => t = t0 + k * dt) ?_ (forall₂_map_range _ _) (by simp)
    rintro st acc k t ⟨h1, h2⟩ rfl
    unfold CLQT.abcStep CLQT.tfAbcBody
    rw [h1, packABCTF_eq, bind_assoc]
    refine (rk4_rel (fun x t => h.abc x t) _ _ _).bindEq fun x => ?_
    rw [h2]
    exact PyRel.ok ⟨rfl, by simp [symPart, unpackABC, unpackABCTF]⟩
  · rintro st acc ⟨h1, h2⟩
    exact PyRel.ok h2

end Rel

end Verif
