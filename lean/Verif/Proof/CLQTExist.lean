import Verif.Proof.RicExist

/-! Existence of the Riccati solution, of the block elements and of the closed loop for semidefinite problems. -/

namespace Verif

open Set Matrix

attribute [local instance] Matrix.normedAddCommGroup Matrix.normedSpace

variable {n m : ℕ} {a b : ℝ}

theorem CLQT.ContData.mono {P : CLQT n m ℝ} (h : P.ContData a b) {a' b' : ℝ} (ha : a ≤ a') (hb : b' ≤ b) : P.ContData a' b' := by
  have hs := Icc_subset_Icc ha hb
  exact ⟨fun i j => (h.F i j).mono hs, fun i j => (h.L i j).mono hs, fun i j => (h.X i j).mono hs, fun i j => (h.U i j).mono hs,
    fun i => (h.c i).mono hs, fun i j => (h.H i j).mono hs, fun i => (h.r i).mono hs, fun t ht => h.sym t (hs ht), fun t ht => h.pos t (hs ht)⟩

theorem CLQT.ContData.lultCont {P : CLQT n m ℝ} (h : P.ContData a b) (i j : Fin n) :
    ContinuousOn (fun t => (P.L t * P.ULT t) i j) (Icc a b) := contOn_mul h.L h.ultCont i j

theorem CLQT.ContData.lultPSD {P : CLQT n m ℝ} (h : P.ContData a b) {t : ℝ} (ht : t ∈ Icc a b) : IsPSD (P.L t * P.ULT t) := by
  have h1 := h.solve ht
  refine ⟨lult_symm (h.sym t ht) h1, fun x => ?_⟩
  obtain ⟨hp, hy⟩ := (solvePos_ok (h.sym t ht)).1 h1
  rw [← Matrix.mulVec_mulVec, dot_symm, ← hy, ← Matrix.mulVec_mulVec]
  exact hp.nonneg _

theorem CLQT.ContData.hxhCont {P : CLQT n m ℝ} (h : P.ContData a b) (i j : Fin n) :
    ContinuousOn (fun t => ((P.H t)ᵀ * P.X t * P.H t) i j) (Icc a b) := contOn_mul (contOn_mul (fun i j => h.H j i) h.X) h.H i j

theorem hxh_psd {p : ℕ} {X : Matrix (Fin p) (Fin p) ℝ} (hX : IsPSD X) (H : Matrix (Fin p) (Fin n) ℝ) : IsPSD (Hᵀ * X * H) := by
  refine ⟨by rw [transpose_mul, transpose_mul, transpose_transpose, hX.1, Matrix.mul_assoc], fun x => ?_⟩
  rw [← Matrix.mulVec_mulVec, ← Matrix.mulVec_mulVec, dot_symm, transpose_transpose, dotProduct_comm]
  exact hX.2 _

/-- The Riccati equation of a semidefinite problem is solvable over the whole interval. -/
theorem CLQT.ric_exists {P : CLQT n m ℝ} (hP : P.ContData a b) (hab : a ≤ b) (hX : ∀ t ∈ Icc a b, IsPSD (P.X t))
    {Sb : Matrix (Fin n) (Fin n) ℝ} (hSb : IsPSD Sb) (vb : Fin n → ℝ) :
    ∃ (S : ℝ → Matrix (Fin n) (Fin n) ℝ) (v : ℝ → Fin n → ℝ), P.RicOn a b S v ∧ S b = Sb ∧ v b = vb ∧ ∀ t ∈ Icc a b, IsPSD (S t) := by
  obtain ⟨S, h1, h2, h3, h4⟩ := riccati_exists hab hP.F hP.lultCont hP.hxhCont (fun t ht => hP.lultPSD ht) (fun t ht => hxh_psd (hX t ht) (P.H t)) hSb
  have hgood : GoodRhs (fun (v : Fin n → ℝ) t => -((P.H t)ᵀ * P.X t) *ᵥ P.r t + S t *ᵥ P.c t - (P.F t)ᵀ *ᵥ v +
      (S t * (P.L t * P.ULT t)) *ᵥ v) a b := by
    have hV : GV a b (fun (v : Fin n → ℝ) _ => v) := fun i => RG.vecEntry i
    exact (((((GM.time hP.H).transpose.mul (GM.time hP.X)).neg.mulVec (GV.time hP.r)).add ((GM.time h2).mulVec (GV.time hP.c))).sub
      ((GM.time hP.F).transpose.mulVec hV) |>.add (((GM.time h2).mul ((GM.time hP.L).mul (GM.time hP.ultCont))).mulVec hV)).rhs
  obtain ⟨v, e1, e2, e3⟩ := hgood.exists_affine_left hab (fun t c x => by
    simp only [Matrix.mulVec_smul, Matrix.mulVec_zero, sub_zero, add_zero]
    module) vb
  refine ⟨S, v, ⟨h2, fun i => continuousOn_pi.1 e2 i, fun t ht => (h3 t ht).1, fun t ht => ?_⟩, h1, e1, h3⟩
  unfold CLQT.ricF
  rw [unpack_packSv]
  exact md_sv.2 ⟨h4 t ht, fun i => hasDerivAt_pi.1 (e3 t ht) i⟩

/-- The closed loop exists over the whole interval. -/
theorem CLQT.loop_exists {P : CLQT n m ℝ} (hP : P.ContData a b) (hab : a ≤ b) {G : ℝ → Matrix (Fin m) (Fin n) ℝ} {d : ℝ → Fin m → ℝ}
    (hG : ∀ i j, ContinuousOn (fun t => G t i j) (Icc a b)) (hd : ∀ i, ContinuousOn (fun t => d t i) (Icc a b)) (x0 : Fin n → ℝ) :
    ∃ x : ℝ → Fin n → ℝ, x a = x0 ∧ (∀ i, ContinuousOn (fun t => x t i) (Icc a b)) ∧
      ∀ t ∈ Ioo a b, ∀ i, HasDerivAt (fun s => x s i) (P.fwG (G t) (d t) (x t) (x t) t i) t := by
  have hgood : GoodRhs (fun x t => P.fwG (G t) (d t) x x t) a b := by
    have hX : GV a b (fun (x : Fin n → ℝ) _ => x) := fun i => RG.vecEntry i
    exact (((GM.time hP.F).mulVec hX).add ((GM.time hP.L).mulVec (((GM.time hG).neg.mulVec hX).add (GV.time hd)))
      |>.add (GV.time hP.c)).rhs
  obtain ⟨x, h1, h2, h3⟩ := hgood.exists_affine hab (fun t c x => by
    unfold CLQT.fwG
    simp only [Matrix.mulVec_smul, Matrix.mulVec_zero, Matrix.mulVec_add]
    module) x0
  exact ⟨x, h1, fun i => continuousOn_pi.1 h2 i, fun t ht i => hasDerivAt_pi.1 (h3 t ht) i⟩

/-- From the problem's Riccati solution to a solution over the interval. -/
theorem CLQT.IsRiccati.ricOn {P : CLQT n m ℝ} {t0 : ℝ} {S : ℝ → Matrix (Fin n) (Fin n) ℝ} {v : ℝ → Fin n → ℝ} (h : P.IsRiccati t0 S v)
    (h0 : t0 < P.T) (hP : P.ContData t0 P.T) : P.RicOn t0 P.T S v := by
  refine ⟨h.contS, h.contv, fun t ht => ?_, fun t ht => ?_⟩
  · ext i j
    have h1 : EqOn (fun t => S t j i) (fun t => S t i j) (Ioo t0 P.T) := fun s hs => congrFun (congrFun (h.sym s hs) i) j
    exact h1.of_subset_closure (h.contS j i) (h.contS i j) Ioo_subset_Icc_self (by rw [closure_Ioo h0.ne]) ht
  · obtain ⟨dy, h1, h2⟩ := h.ode t ht
    rw [hP.riccati ⟨ht.1.le, ht.2.le⟩] at h1
    obtain rfl := Except.ok.inj h1
    exact h2

theorem CLQT.RicOn.isRiccati {P : CLQT n m ℝ} {t0 : ℝ} {S : ℝ → Matrix (Fin n) (Fin n) ℝ} {v : ℝ → Fin n → ℝ} (h : P.RicOn t0 P.T S v)
    (hP : P.ContData t0 P.T) (hS : S P.T = P.HTᵀ * P.XT * P.HT) (hv : v P.T = (P.HTᵀ * P.XT) *ᵥ P.rT) : P.IsRiccati t0 S v :=
  ⟨h.contS, h.contv, fun t ht => h.sym t ⟨ht.1.le, ht.2.le⟩, fun t ht => ⟨_, hP.riccati ⟨ht.1.le, ht.2.le⟩ _, h.ode t ht⟩, hS, hv⟩

/-- Solutions of the Riccati equation are determined by their value at the end. -/
theorem CLQT.RicOn.unique {P : CLQT n m ℝ} (hP : P.ContData a b) {S S' : ℝ → Matrix (Fin n) (Fin n) ℝ} {v v' : ℝ → Fin n → ℝ}
    (h : P.RicOn a b S v) (h' : P.RicOn a b S' v') (hS : S b = S' b) (hv : v b = v' b) : ∀ t ∈ Icc a b, S t = S' t ∧ v t = v' t := by
  intro t ht
  have h1 := hP.ricGood.rhs.unique_left (contOn_pack h.contS h.contv) (fun t ht => hasDerivAt_mat (h.ode t ht))
    (contOn_pack h'.contS h'.contv) (fun t ht => hasDerivAt_mat (h'.ode t ht)) (by simp only [hS, hv]) t ht
  have h2 := congrArg unpackSv h1
  simp only [unpack_packSv, Prod.mk.injEq] at h2
  exact h2

end Verif
