import Verif.Model.LQTBatch
import Verif.Proof.LQT
import Mathlib.Algebra.BigOperators.Fin

/-! The batch solution solves the same problem as the recursions. -/

namespace Verif

open Matrix

variable {n m q T : ℕ} {K : Type} [Field K]

/-! ### Block matrices -/

section Blocks
variable {α β : Type} [Fintype α] [Fintype β]

theorem blkDiag_mulVec (D : Fin T → Matrix α β K) (y : Fin T × β → K) (i : Fin T) (a : α) :
    (blkDiag D *ᵥ y) (i, a) = (D i *ᵥ fun b => y (i, b)) a := by
  simp only [mulVec, dotProduct, blkDiag, of_apply, Fintype.sum_prod_type]
  rw [Finset.sum_eq_single i]
  · simp
  · intro j _ hj
    simp [Ne.symm hj]
  · simp

theorem blkSub_mulVec (D : Fin T → Matrix α β K) (y : Fin T × β → K) (i : Fin T) (a : α) :
    (blkSub D *ᵥ y) (i, a) =
      if h : 0 < i.1 then (D i *ᵥ fun b => y (⟨i.1 - 1, by omega⟩, b)) a else 0 := by
  simp only [mulVec, dotProduct, blkSub, of_apply, Fintype.sum_prod_type]
  split
  · rename_i h
    rw [Finset.sum_eq_single ⟨i.1 - 1, by omega⟩]
    · have : i.1 - 1 + 1 = i.1 := by omega
      simp [this]
    · intro j _ hj
      have : ¬ (j.1 + 1 = i.1) := fun e => hj (Fin.ext (by simp only; omega))
      simp [this]
    · simp
  · rename_i h
    refine Finset.sum_eq_zero fun j _ => Finset.sum_eq_zero fun b _ => ?_
    have : ¬ (j.1 + 1 = i.1) := by omega
    simp [this]

theorem blk_dot (y z : Fin T × α → K) : y ⬝ᵥ z = ∑ i, (fun a => y (i, a)) ⬝ᵥ (fun a => z (i, a)) := by
  simp only [dotProduct, Fintype.sum_prod_type]

theorem blkDiag_transpose {D : Fin T → Matrix α α K} (h : ∀ i, (D i)ᵀ = D i) : (blkDiag D)ᵀ = blkDiag D := by
  ext ⟨i, a⟩ ⟨j, b⟩
  simp only [blkDiag, transpose_apply, of_apply]
  by_cases e : i = j
  · subst e
    simp only [if_pos]
    exact congrFun (congrFun (h i) a) b
  · rw [if_neg e, if_neg (Ne.symm e)]

theorem blkDiag_dot (D : Fin T → Matrix α β K) (y : Fin T × α → K) (z : Fin T × β → K) :
    y ⬝ᵥ blkDiag D *ᵥ z = ∑ i, (fun a => y (i, a)) ⬝ᵥ D i *ᵥ (fun b => z (i, b)) := by
  rw [blk_dot]
  refine Finset.sum_congr rfl fun i _ => ?_
  congr 1
  ext a
  exact blkDiag_mulVec D z i a

end Blocks

/-- Blocks of a state vector, with the initial state in front. -/
def withInit (x0 : Fin n → K) (x : Fin T × Fin n → K) : Fin (T + 1) → Fin n → K :=
  Fin.cons x0 fun i a => x (i, a)

theorem batchA_eq (st : Fin T → BStage q n m K) : batchA st = 1 - blkSub fun i => (st i).F := by
  ext ⟨i, a⟩ ⟨j, b⟩
  simp only [batchA, blkSub, of_apply, Matrix.sub_apply, one_apply, Prod.mk.injEq]
  by_cases h : i = j
  · subst h
    by_cases h2 : a = b <;> simp [h2]
  · by_cases h2 : j.1 + 1 = i.1 <;> simp [h, h2]

/-- The previous state. -/
theorem withInit_prev (x0 : Fin n → K) (x : Fin T × Fin n → K) (i : Fin T) :
    withInit x0 x i.castSucc = if h : 0 < i.1 then (fun b => x (⟨i.1 - 1, by omega⟩, b)) else x0 := by
  unfold withInit
  split
  · rename_i h
    have : i.castSucc = Fin.succ ⟨i.1 - 1, by omega⟩ := Fin.ext (by simp; omega)
    rw [this, Fin.cons_succ]
  · rename_i h
    have : i.castSucc = 0 := Fin.ext (by simp; omega)
    rw [this, Fin.cons_zero]

theorem blkSub_prev {α : Type} [Fintype α] (D : Fin T → Matrix α (Fin n) K) (x0 : Fin n → K) (x : Fin T × Fin n → K)
    (i : Fin T) (a : α) : (blkSub D *ᵥ x) (i, a) =
      (D i *ᵥ withInit x0 x i.castSucc) a - if i.1 = 0 then (D i *ᵥ x0) a else 0 := by
  rw [blkSub_mulVec, withInit_prev]
  by_cases h : 0 < i.1
  · simp [h, h.ne']
  · have : i.1 = 0 := by omega
    simp [this]

/-- The step with its output dimension. -/
def BStage.toL (s : BStage q n m K) : LStage n m K := ⟨q, s.F, s.L, s.X, s.U, s.c, s.H, s.r, s.Z, s.s, s.M⟩

/-- The block system describes the trajectory. -/
theorem batch_system (st : Fin T → BStage q n m K) (x0 : Fin n → K) (u : Fin T × Fin m → K) (x : Fin T × Fin n → K) :
    batchA st *ᵥ x = blkDiag (fun i => (st i).L) *ᵥ u + batchd st x0 ↔
      ∀ i : Fin T, withInit x0 x i.succ = (st i).toL.next (withInit x0 x i.castSucc) fun b => u (i, b) := by
  rw [batchA_eq, sub_mulVec, one_mulVec, funext_iff]
  constructor
  · intro h i
    ext a
    have := h (i, a)
    simp only [Pi.sub_apply, Pi.add_apply] at this
    rw [blkSub_prev _ x0, blkDiag_mulVec] at this
    show x (i, a) = ((st i).F *ᵥ _ + (st i).c + (st i).L *ᵥ _) a
    simp only [Pi.add_apply]
    unfold batchd at this
    split at this
    · rename_i h0
      simp only [if_pos h0] at this
      linear_combination this
    · rename_i h0
      simp only [if_neg h0] at this
      linear_combination this
  · rintro h ⟨i, a⟩
    have := congrFun (h i) a
    change x (i, a) = ((st i).F *ᵥ _ + (st i).c + (st i).L *ᵥ _) a at this
    simp only [Pi.add_apply] at this
    simp only [Pi.sub_apply, Pi.add_apply]
    rw [blkSub_prev _ x0, blkDiag_mulVec]
    unfold batchd
    by_cases h0 : i.1 = 0
    · simp only [if_pos h0]
      linear_combination this
    · simp only [if_neg h0]
      linear_combination this

theorem batchA_det (st : Fin T → BStage q n m K) : (batchA st).det ≠ 0 := by
  apply det_ne_zero_of_inj
  intro x hx
  rw [batchA_eq, sub_mulVec, one_mulVec, sub_eq_zero] at hx
  have key : ∀ k : ℕ, ∀ h : k < T, ∀ a, x (⟨k, h⟩, a) = 0 := by
    intro k
    induction k with
    | zero =>
      intro h a
      rw [hx, blkSub_mulVec]
      simp
    | succ k ih =>
      intro h a
      rw [hx, blkSub_mulVec]
      have e : (fun b => x (⟨k, by omega⟩, b)) = 0 := funext fun b => ih (by omega) b
      simp [e]
  ext ⟨i, a⟩
  exact key i.1 i.2 a

/-! ### Cost along a trajectory -/

theorem traj_total (g : (Fin n → K) → K) : ∀ {T : ℕ} (s : Fin T → LStage n m K) (u : Fin T → Fin m → K)
    (x : Fin (T + 1) → Fin n → K), (∀ i : Fin T, x i.succ = (s i).next (x i.castSucc) (u i)) →
    lqtTotal g (List.ofFn s) (x 0) (List.ofFn u) = ∑ i, (s i).cost (x i.castSucc) (u i) + g (x (Fin.last T)) ∧
    lqtRun (List.ofFn s) (x 0) (List.ofFn u) = List.ofFn fun i => x i.succ := by
  intro T
  induction T with
  | zero => intro s u x _; simp [lqtTotal, lqtRun]
  | succ T ih =>
    intro s u x h
    obtain ⟨h1, h2⟩ := ih (fun i => s i.succ) (fun i => u i.succ) (fun i => x i.succ) (fun i => h i.succ)
    simp only [List.ofFn_succ, lqtTotal, lqtRun]
    have e : (s 0).next (x 0) (u 0) = x (Fin.succ 0) := (h 0).symm
    rw [e, h1, h2, Fin.sum_univ_succ]
    refine ⟨?_, rfl⟩
    simp only [Fin.castSucc_zero, Fin.succ_castSucc, Fin.succ_last]
    ring

variable [LinearOrder K] [IsStrictOrderedRing K]

/-- A quadratic function with a strict minimiser: the normal equations are nonsingular and it solves them. -/
theorem quad_strict_min {ι : Type} [Fintype ι] [DecidableEq ι] {Q : Matrix ι ι K} {b : ι → K} {κ : K} (hQ : Qᵀ = Q)
    {u : ι → K} {J : (ι → K) → K} (hJ : ∀ u, J u = (1 / 2) * (u ⬝ᵥ Q *ᵥ u) - b ⬝ᵥ u + κ)
    (hu : ∀ u', u' ≠ u → J u < J u') : Q.det ≠ 0 ∧ Q *ᵥ u = b := by
  have key : ∀ w, w ≠ 0 → 0 < (1 / 2) * (w ⬝ᵥ Q *ᵥ w) + (Q *ᵥ u - b) ⬝ᵥ w := by
    intro w hw
    have h1 := hu (u + w) (by simpa using hw)
    rw [hJ, hJ, mulVec_add, add_dotProduct, dotProduct_add, dotProduct_add, dotProduct_add] at h1
    have e : u ⬝ᵥ Q *ᵥ w = w ⬝ᵥ Q *ᵥ u := by rw [dot_symm, hQ]
    have e2 : w ⬝ᵥ Q *ᵥ u = (Q *ᵥ u) ⬝ᵥ w := dotProduct_comm _ _
    rw [e, e2] at h1
    rw [sub_dotProduct]
    linarith
  have hpd : IsPD Q := by
    intro w hw
    have h1 := key w hw
    have h2 := key (-w) (by simpa using hw)
    rw [mulVec_neg, neg_dotProduct, dotProduct_neg, dotProduct_neg, neg_neg] at h2
    linarith
  refine ⟨hpd.det_ne_zero, ?_⟩
  rw [← sub_eq_zero]
  by_contra hg
  set g := Q *ᵥ u - b with hgdef
  have hq := hpd g hg
  have hgg : 0 < g ⬝ᵥ g := by
    rcases (Finset.sum_nonneg fun i _ => mul_self_nonneg (g i) : 0 ≤ g ⬝ᵥ g).lt_or_eq with h | h
    · exact h
    · exact absurd (dotProduct_self_eq_zero.1 h.symm) hg
  set t := g ⬝ᵥ g / (g ⬝ᵥ Q *ᵥ g) with ht
  have htp : 0 < t := div_pos hgg hq
  have h1 := key (-(t • g)) (by simpa using ⟨htp.ne', hg⟩)
  rw [mulVec_neg, neg_dotProduct, dotProduct_neg, dotProduct_neg, neg_neg, mulVec_smul, smul_dotProduct,
    dotProduct_smul, dotProduct_smul, smul_eq_mul, smul_eq_mul, smul_eq_mul] at h1
  have h2 : t * (g ⬝ᵥ Q *ᵥ g) = g ⬝ᵥ g := div_mul_cancel₀ _ hq.ne'
  rw [h2] at h1
  have := mul_pos htp hgg
  linarith

/-- The problem described by the blocks. -/
def batchP (st : Fin T → BStage q n m K) (t : BOut q n K) : LQT n m K :=
  ⟨List.ofFn fun i => (st i).toL, q, t.1, t.2.1, t.2.2⟩

omit [LinearOrder K] [IsStrictOrderedRing K] in
/-- The cost in block form. -/
theorem batch_cost (hT : 0 < T) (st : Fin T → BStage q n m K) (t : BOut q n K) (x0 : Fin n → K) :
    ∃ κ : K, ∀ (u : Fin T × Fin m → K) (x : Fin T × Fin n → K),
      batchA st *ᵥ x = blkDiag (fun i => (st i).L) *ᵥ u + batchd st x0 →
      lqtTotal (batchP st t).final (batchP st t).stages x0 (List.ofFn fun i => fun a => u (i, a)) =
        (1 / 2) * ((blkDiag (fun i => (nextOut st t i).2.1) *ᵥ x - fun ia => (nextOut st t ia.1).2.2 ia.2) ⬝ᵥ
          blkDiag (fun i => (nextOut st t i).1) *ᵥ
          (blkDiag (fun i => (nextOut st t i).2.1) *ᵥ x - fun ia => (nextOut st t ia.1).2.2 ia.2)) +
        (1 / 2) * ((blkDiag (fun i => (st i).Z) *ᵥ u - fun ia => (st ia.1).s ia.2) ⬝ᵥ
          blkDiag (fun i => (st i).U) *ᵥ (blkDiag (fun i => (st i).Z) *ᵥ u - fun ia => (st ia.1).s ia.2)) +
        (blkSub (fun i => (st i).H) *ᵥ x - batchr0 st x0) ⬝ᵥ
          blkDiag (fun i => (st i).M) *ᵥ (blkDiag (fun i => (st i).Z) *ᵥ u - fun ia => (st ia.1).s ia.2) + κ := by
  refine ⟨halfQuad (st ⟨0, hT⟩).X ((st ⟨0, hT⟩).H *ᵥ x0 - (st ⟨0, hT⟩).r), fun u x hx => ?_⟩
  have htr := (batch_system st x0 u x).1 hx
  have h1 := (traj_total (batchP st t).final (fun i => (st i).toL) (fun i => fun a => u (i, a)) (withInit x0 x) htr).1
  change lqtTotal (batchP st t).final (List.ofFn fun i => (st i).toL) (withInit x0 x 0) _ = _
  rw [h1]
  set w := withInit x0 x with hw
  have hZ : ∀ i, (fun a => (blkDiag (fun i => (st i).Z) *ᵥ u -
      fun ia : Fin T × Fin m => (st ia.1).s ia.2) (i, a)) =
      (st i).Z *ᵥ (fun b => u (i, b)) - (st i).s := by
    intro i; ext a; simp only [Pi.sub_apply]; rw [blkDiag_mulVec]
  have hH1 : ∀ i, (fun a => (blkDiag (fun i => (nextOut st t i).2.1) *ᵥ x -
      fun ia : Fin T × Fin q => (nextOut st t ia.1).2.2 ia.2) (i, a)) = (nextOut st t i).2.1 *ᵥ (w i.succ) - (nextOut st t i).2.2 := by
    intro i; ext a; simp only [Pi.sub_apply]; rw [blkDiag_mulVec]; rfl
  have hH0 : ∀ i, (fun a => (blkSub (fun i => (st i).H) *ᵥ x - batchr0 st x0) (i, a)) =
      (st i).H *ᵥ (w i.castSucc) - (st i).r := by
    intro i; ext a
    simp only [Pi.sub_apply]
    rw [blkSub_prev _ x0]
    unfold batchr0
    by_cases h0 : i.1 = 0
    · simp [h0, ← hw]
    · simp [h0, Nat.pos_of_ne_zero h0, ← hw]
  rw [blkDiag_dot, blkDiag_dot, blkDiag_dot]
  simp only [hZ, hH1, hH0]
  let f : Fin (T + 1) → K := fun k => if h : k.1 < T then
    halfQuad (st ⟨k, h⟩).X ((st ⟨k, h⟩).H *ᵥ w k - (st ⟨k, h⟩).r) else halfQuad t.1 (t.2.1 *ᵥ w k - t.2.2)
  have f1 : ∀ i : Fin T, f i.castSucc = halfQuad (st i).X ((st i).H *ᵥ w i.castSucc - (st i).r) := by
    intro i; simp [f]
  have f2 : f (Fin.last T) = (batchP st t).final (w (Fin.last T)) := by
    simp only [f, Fin.val_last, lt_irrefl, dite_false]; rfl
  have f3 : ∀ i : Fin T, f i.succ = (1 / 2) * (((nextOut st t i).2.1 *ᵥ w i.succ - (nextOut st t i).2.2) ⬝ᵥ
      (nextOut st t i).1 *ᵥ ((nextOut st t i).2.1 *ᵥ w i.succ - (nextOut st t i).2.2)) := by
    intro i
    simp only [f, Fin.val_succ, nextOut]
    by_cases h : i.1 + 1 < T
    · simp only [h, dite_true]; rfl
    · simp only [h, dite_false]; rfl
  have f0 : f 0 = halfQuad (st ⟨0, hT⟩).X ((st ⟨0, hT⟩).H *ᵥ x0 - (st ⟨0, hT⟩).r) := by
    have : w 0 = x0 := rfl
    simp only [f]
    rw [dif_pos (show (0 : Fin (T + 1)).1 < T from hT), this]
    rfl
  have hs := (Fin.sum_univ_castSucc f).symm.trans (Fin.sum_univ_succ f)
  simp only [f1, f2, f3, f0] at hs
  have hc : ∀ i, (st i).toL.cost (w i.castSucc) (fun a => u (i, a)) =
      halfQuad (st i).X ((st i).H *ᵥ w i.castSucc - (st i).r) +
      ((1 / 2) * (((st i).Z *ᵥ (fun b => u (i, b)) - (st i).s) ⬝ᵥ (st i).U *ᵥ
        ((st i).Z *ᵥ (fun b => u (i, b)) - (st i).s)) +
      ((st i).H *ᵥ w i.castSucc - (st i).r) ⬝ᵥ (st i).M *ᵥ ((st i).Z *ᵥ (fun b => u (i, b)) - (st i).s)) := by
    intro i
    rw [← add_assoc]
    rfl
  simp only [hc, Finset.sum_add_distrib, Finset.mul_sum]
  linear_combination hs

omit [LinearOrder K] [IsStrictOrderedRing K] in
/-- A quadratic function of an affine function. -/
theorem quad_affine {ι κ : Type} [Fintype ι] [Fintype κ] (A : Matrix κ ι K) (b : κ → K) {W : Matrix κ κ K}
    (hW : Wᵀ = W) (u : ι → K) : (A *ᵥ u - b) ⬝ᵥ W *ᵥ (A *ᵥ u - b) =
      u ⬝ᵥ (Aᵀ * W * A) *ᵥ u - 2 * (((Aᵀ * W) *ᵥ b) ⬝ᵥ u) + b ⬝ᵥ W *ᵥ b := by
  have e1 : u ⬝ᵥ (Aᵀ * W * A) *ᵥ u = (A *ᵥ u) ⬝ᵥ W *ᵥ (A *ᵥ u) := by
    rw [← mulVec_mulVec, ← mulVec_mulVec, dot_symm, transpose_transpose, dotProduct_comm]
  have e2 : ((Aᵀ * W) *ᵥ b) ⬝ᵥ u = (W *ᵥ b) ⬝ᵥ (A *ᵥ u) := by
    rw [← mulVec_mulVec, dotProduct_comm, dot_symm, transpose_transpose]
  have e3 : b ⬝ᵥ W *ᵥ (A *ᵥ u) = (W *ᵥ b) ⬝ᵥ (A *ᵥ u) := by
    rw [dot_symm, hW, dotProduct_comm]
  have e4 : (A *ᵥ u) ⬝ᵥ W *ᵥ b = (W *ᵥ b) ⬝ᵥ (A *ᵥ u) := dotProduct_comm _ _
  rw [e1, e2, mulVec_sub, sub_dotProduct, dotProduct_sub, dotProduct_sub, e3, e4]
  ring

omit [LinearOrder K] [IsStrictOrderedRing K] in
/-- A bilinear function of two affine functions. -/
theorem bilin_affine [CharZero K] {ι κ μ : Type} [Fintype ι] [Fintype κ] [Fintype μ] (A : Matrix κ ι K) (b : κ → K)
    (Z : Matrix μ ι K) (s : μ → K) (M : Matrix κ μ K) (u : ι → K) : (A *ᵥ u - b) ⬝ᵥ M *ᵥ (Z *ᵥ u - s) =
      (1 / 2) * (u ⬝ᵥ (Aᵀ * M * Z + Zᵀ * Mᵀ * A) *ᵥ u) - ((Aᵀ * M) *ᵥ s + (Zᵀ * Mᵀ) *ᵥ b) ⬝ᵥ u + b ⬝ᵥ M *ᵥ s := by
  have e1 : u ⬝ᵥ (Aᵀ * M * Z) *ᵥ u = (A *ᵥ u) ⬝ᵥ M *ᵥ (Z *ᵥ u) := by
    rw [← mulVec_mulVec, ← mulVec_mulVec, dot_symm, transpose_transpose, dotProduct_comm]
  have e1' : u ⬝ᵥ (Zᵀ * Mᵀ * A) *ᵥ u = (A *ᵥ u) ⬝ᵥ M *ᵥ (Z *ᵥ u) := by
    rw [← mulVec_mulVec, ← mulVec_mulVec, dot_symm, transpose_transpose, dotProduct_comm, dot_symm, transpose_transpose]
  have e2 : ((Aᵀ * M) *ᵥ s) ⬝ᵥ u = (A *ᵥ u) ⬝ᵥ M *ᵥ s := by
    rw [← mulVec_mulVec, dotProduct_comm, dot_symm, transpose_transpose, dotProduct_comm]
  have e3 : ((Zᵀ * Mᵀ) *ᵥ b) ⬝ᵥ u = b ⬝ᵥ M *ᵥ (Z *ᵥ u) := by
    rw [← mulVec_mulVec, dotProduct_comm, dot_symm, transpose_transpose, dotProduct_comm, dot_symm M]
  rw [add_mulVec, dotProduct_add, e1, e1', add_dotProduct, e2, e3, mulVec_sub, sub_dotProduct, dotProduct_sub,
    dotProduct_sub]
  ring

/-- The block system has the strict minimiser of the cost as its solution. -/
theorem batchSolve_eq (hT : 0 < T) (st : Fin T → BStage q n m K) (t : BOut q n K) (x0 : Fin n → K)
    (hsym : (batchP st t).Sym) {us : List (Fin m → K)} (hul : us.length = T)
    (hmin : ∀ us', us'.length = T → us' ≠ us → lqtTotal (batchP st t).final (batchP st t).stages x0 us <
      lqtTotal (batchP st t).final (batchP st t).stages x0 us') :
    batchSolve st t x0 = .ok (us, x0 :: lqtRun (batchP st t).stages x0 us) := by
  subst hul
  obtain ⟨κ, hκ⟩ := batch_cost hT st t x0
  have hdet := batchA_det st
  have hAm := mul_minv hdet
  set Ai := minv (batchA st) with hAi
  set B := blkDiag (fun i => (st i).L) with hB
  set d := batchd st x0 with hd
  set tH1 := blkDiag (fun i => (nextOut st t i).2.1) with htH1
  set tr1 : Fin us.length × Fin q → K := fun ia => (nextOut st t ia.1).2.2 ia.2 with htr1
  set tX := blkDiag (fun i => (nextOut st t i).1) with htX
  set tH0 := blkSub (fun i => (st i).H) with htH0
  set tr0 := batchr0 st x0 with htr0
  set tZ := blkDiag (fun i => (st i).Z) with htZ
  set ts : Fin us.length × Fin m → K := fun ia => (st ia.1).s ia.2 with hts
  set tU := blkDiag (fun i => (st i).U) with htU
  set tM := blkDiag (fun i => (st i).M) with htM
  set AB := Ai * B with hAB
  set Ad := Ai *ᵥ d with hAd
  set tA1 := tH1 * AB with htA1
  set tb1 := tr1 - tH1 *ᵥ Ad with htb1
  set tA0 := tH0 * AB with htA0
  set tb0 := tr0 - tH0 *ᵥ Ad with htb0
  set Q := tA1ᵀ * tX * tA1 + tZᵀ * tU * tZ + tA0ᵀ * tM * tZ + tZᵀ * tMᵀ * tA0 with hQ
  set b := (tA1ᵀ * tX) *ᵥ tb1 + (tZᵀ * tU) *ᵥ ts + (tA0ᵀ * tM) *ᵥ ts + (tZᵀ * tMᵀ) *ᵥ tb0 with hb
  have hmem : ∀ i, (st i).toL ∈ (batchP st t).stages := fun i => by
    show _ ∈ List.ofFn _
    rw [List.mem_ofFn]; exact ⟨i, rfl⟩
  have hXs : tXᵀ = tX := blkDiag_transpose fun i => by
    unfold nextOut
    split
    · rename_i h
      exact (hsym.1 _ (hmem ⟨i + 1, h⟩)).1
    · exact hsym.2
  have hUs : tUᵀ = tU := blkDiag_transpose fun i => (hsym.1 _ (hmem i)).2
  have hQs : Qᵀ = Q := by
    simp only [hQ, transpose_add, transpose_mul, transpose_transpose, hXs, hUs, Matrix.mul_assoc]
    abel
  have hsol : ∀ u, batchA st *ᵥ (AB *ᵥ u + Ad) = B *ᵥ u + d := by
    intro u
    rw [mulVec_add, hAB, hAd, mulVec_mulVec, mulVec_mulVec, ← Matrix.mul_assoc, hAm, Matrix.one_mul, one_mulVec]
  let J : (Fin us.length × Fin m → K) → K := fun u =>
    lqtTotal (batchP st t).final (batchP st t).stages x0 (List.ofFn fun i => fun a => u (i, a))
  have hJ : ∀ u, J u = (1 / 2) * (u ⬝ᵥ Q *ᵥ u) - b ⬝ᵥ u +
      ((1 / 2) * (tb1 ⬝ᵥ tX *ᵥ tb1) + (1 / 2) * (ts ⬝ᵥ tU *ᵥ ts) + tb0 ⬝ᵥ tM *ᵥ ts + κ) := by
    intro u
    have h1 := hκ u (AB *ᵥ u + Ad) (hsol u)
    have e1 : tH1 *ᵥ (AB *ᵥ u + Ad) - tr1 = tA1 *ᵥ u - tb1 := by
      rw [htA1, htb1, mulVec_add, mulVec_mulVec]; abel
    have e0 : tH0 *ᵥ (AB *ᵥ u + Ad) - tr0 = tA0 *ᵥ u - tb0 := by
      rw [htA0, htb0, mulVec_add, mulVec_mulVec]; abel
    rw [e1, e0, quad_affine _ _ hXs, quad_affine _ _ hUs, bilin_affine] at h1
    show lqtTotal _ _ _ _ = _
    rw [h1, hQ, hb]
    simp only [add_mulVec, dotProduct_add, add_dotProduct]
    ring
  let u : Fin us.length × Fin m → K := fun ia => us.get ia.1 ia.2
  have hofn : (List.ofFn fun i => fun a => u (i, a)) = us := List.ofFn_get us
  have hmin' : ∀ u', u' ≠ u → J u < J u' := by
    intro u' hne
    show lqtTotal _ _ _ _ < lqtTotal _ _ _ _
    rw [hofn]
    refine hmin _ (by simp) fun e => hne ?_
    have e2 : (List.ofFn fun i => fun a => u' (i, a)) = List.ofFn fun i => fun a => u (i, a) := by rw [e, hofn]
    have := List.ofFn_injective e2
    ext ⟨i, a⟩
    exact congrFun (congrFun this i) a
  obtain ⟨hdQ, hQu⟩ := quad_strict_min hQs hJ hmin'
  have hx := (batch_system st x0 u (AB *ᵥ u + Ad)).1 (hsol u)
  have hrun := (traj_total (batchP st t).final (fun i => (st i).toL) (fun i => fun a => u (i, a)) _ hx).2
  unfold batchSolve
  simp only [bind_ok, pure, Except.pure]
  refine ⟨AB, solve_ok.2 ⟨hdet, by rw [hAB, ← Matrix.mul_assoc, hAm, Matrix.one_mul]⟩, Ad,
    solveV_ok.2 ⟨hdet, by rw [hAd, mulVec_mulVec, hAm, one_mulVec]⟩, u, solveV_ok.2 ⟨hdQ, hQu⟩, AB *ᵥ u + Ad,
    solveV_ok.2 ⟨hdet, hsol u⟩, ?_⟩
  rw [hofn] at hrun ⊢
  have : withInit x0 (AB *ᵥ u + Ad) 0 = x0 := rfl
  rw [this] at hrun
  have e : (batchP st t).stages = List.ofFn fun i => (st i).toL := rfl
  rw [e, hrun]
  rfl

/-- The closed loop is the strict minimiser. -/
theorem seq_strict_min {P : LQT n m K} (hP : P.Sym) {bw : BwResult n m K} (hb : P.seqBackwardPass = .ok bw)
    (x0 : Fin n → K) : ∃ us, us.length = P.stages.length ∧
      P.seqForwardPass x0 bw.Kx_list bw.d_list = .ok (us, x0 :: lqtRun P.stages x0 us) ∧
      ∀ us', us'.length = P.stages.length → us' ≠ us →
        lqtTotal P.final P.stages x0 us < lqtTotal P.final P.stages x0 us' := by
  obtain ⟨S, v, hb⟩ := seqBackwardPass_iff.1 hb
  obtain ⟨κ, hκ⟩ := seq_square hP hb
  obtain ⟨us, hul, hf⟩ := lqtForwardLoop_ok hb.length.1 hb.length.2.1 x0
  have he := fun us' hu' => excess_sum hb (term_symm P hP.2) hP.1 x0 us' hu'
  refine ⟨us, hul, ?_, fun us' hu' hne => ?_⟩
  · unfold LQT.seqForwardPass; rw [hf]; rfl
  · rw [hκ x0 us hul, hκ x0 us' hu', ((he us hul).2).2 hf]
    rcases (he us' hu').1.lt_or_eq with h | h
    · linarith
    · have := ((he us' hu').2).1 h.symm
      rw [hf] at this
      simp only [Except.ok.injEq, Prod.mk.injEq] at this
      exact absurd this.1.symm hne

omit [LinearOrder K] [IsStrictOrderedRing K] in
theorem bStage_same {s : LStage n m K} (h : s.p = q) : ∃ o, s.bStage q = .ok o ∧ o.toL = s := by
  subst h
  obtain ⟨p, F, L, X, U, c, H, r, Z, sv, M⟩ := s
  refine ⟨⟨F, L, X, U, c, H, r, Z, sv, M⟩, ?_, rfl⟩
  unfold LStage.bStage bIdx
  simp only [dite_true]
  rfl

omit [LinearOrder K] [IsStrictOrderedRing K] in
theorem bStages_same {ss : List (LStage n m K)} (h : ∀ s ∈ ss, s.p = q) :
    ∃ os, ss.mapM (LStage.bStage q) = .ok os ∧ os.map BStage.toL = ss := by
  induction ss with
  | nil => exact ⟨[], rfl, rfl⟩
  | cons s ss ih =>
    obtain ⟨o, h1, h2⟩ := bStage_same (h s (by simp))
    obtain ⟨os, h3, h4⟩ := ih fun s hs => h s (by simp [hs])
    refine ⟨o :: os, ?_, by simp [h2, h4]⟩
    rw [List.mapM_cons, h1, h3]
    rfl

omit [LinearOrder K] [IsStrictOrderedRing K] in
theorem bTerm_same {P : LQT n m K} (h : P.pT = q) : ∃ t, P.bTerm q = .ok t ∧
    P = ⟨P.stages, q, t.1, t.2.1, t.2.2⟩ := by
  subst h
  refine ⟨(P.XT, P.HT, P.rT), ?_, rfl⟩
  unfold LQT.bTerm bIdx
  simp only [dite_true]
  rfl

theorem batch_eq_seq {P : LQT n m K} (hP : P.Sym) (hp : ∀ s ∈ P.stages, s.p = P.pT) (hT : P.stages ≠ [])
    {bw : BwResult n m K} (hb : P.seqBackwardPass = .ok bw) (x0 : Fin n → K) :
    P.batchSolution x0 = P.seqForwardPass x0 bw.Kx_list bw.d_list := by
  obtain ⟨us, hul, hf, hmin⟩ := seq_strict_min hP hb x0
  obtain ⟨s0, ss, hss⟩ := List.exists_cons_of_ne_nil hT
  have h0 : s0.p = P.pT := hp s0 (by simp [hss])
  obtain ⟨os, ho1, ho2⟩ := bStages_same (q := s0.p) (fun s hs => (hp s hs).trans h0.symm)
  obtain ⟨t, ht1, ht2⟩ := bTerm_same h0.symm
  have hPe : batchP os.get t = P := by
    rw [ht2]
    unfold batchP
    have : (List.ofFn fun i => (os.get i).toL) = P.stages := by
      rw [← ho2]
      have := List.ofFn_get os
      conv_rhs => rw [← this]
      rw [List.map_ofFn]
      rfl
    rw [this]
  have hlen : os.length = P.stages.length := by rw [← ho2, List.length_map]
  have hpos : 0 < os.length := by rw [hlen, hss]; simp
  have h1 := batchSolve_eq hpos os.get t x0 (by rw [hPe]; exact hP) (us := us) (by rw [hul, hlen])
    (by rw [hPe]; intro us' h'; exact hmin us' (by rw [h', hlen]))
  rw [hPe] at h1
  rw [hf, ← h1]
  unfold LQT.batchSolution
  have e0 : pyGet P.stages 0 = .ok s0 := by rw [hss]; rfl
  rw [e0]
  show (do let st ← P.stages.mapM (LStage.bStage s0.p); let t ← P.bTerm s0.p; batchSolve st.get t x0) = _
  rw [ho1]
  show (do let t ← P.bTerm s0.p; batchSolve os.get t x0) = _
  rw [ht1]
  rfl

end Verif
