import Verif.Spec.Condensing
import Verif.Proof.LQTBatch
import Verif.Proof.LQTCheck

/-! Lemmas about partial condensing. -/

namespace Verif

open Matrix

variable {n m p N : ℕ} {K : Type} [Field K]

/-! ### Evaluation in order -/

theorem pyFin_ok {α : Type} : ∀ {N : ℕ} {f : Fin N → Py α} {g : Fin N → α}, pyFin f = .ok g ↔ ∀ i, f i = .ok (g i) := by
  intro N
  induction N with
  | zero =>
    intro f g
    simp only [pyFin, Except.ok.injEq]
    exact ⟨fun _ i => i.elim0, fun _ => funext fun i => i.elim0⟩
  | succ N ih =>
    intro f g
    unfold pyFin
    rw [bind_ok]
    constructor
    · rintro ⟨a, h1, h⟩
      rw [bind_ok] at h
      obtain ⟨r, h2, h3⟩ := h
      simp only [pure, Except.pure, Except.ok.injEq] at h3
      subst h3
      intro i
      refine Fin.cases ?_ (fun i => ?_) i
      · exact h1
      · exact ih.1 h2 i
    · intro h
      refine ⟨g 0, h 0, bind_ok.2 ⟨fun i => g i.succ, ih.2 fun i => h i.succ, ?_⟩⟩
      simp only [pure, Except.pure, Except.ok.injEq]
      funext i
      refine Fin.cases rfl (fun i => rfl) i

/-! ### States inside a block -/

/-- The flattened control of a block. -/
def flatU (u : Fin N → Fin m → K) : Fin (N * m) → K := fun k => u (finProdFinEquiv.symm k).1 (finProdFinEquiv.symm k).2

/-- The states inside a block. -/
def blkRun (b : Fin N → BStage p n m K) (x : Fin n → K) (u : Fin N → Fin m → K) : ℕ → Fin n → K
  | 0 => x
  | i + 1 => if h : i < N then (b ⟨i, h⟩).toL.next (blkRun b x u i) (u ⟨i, h⟩) else blkRun b x u i

theorem pow_sum_succ (F : Fin N → Matrix (Fin n) (Fin n) K) (v : Fin N → Fin n → K) {i : ℕ} (h : i < N) :
    (∑ j : Fin N, if j.1 < i + 1 then condPow F (i + 1) j *ᵥ v j else 0) =
      F ⟨i, h⟩ *ᵥ (∑ j : Fin N, if j.1 < i then condPow F i j *ᵥ v j else 0) + v ⟨i, h⟩ := by
  have e : ∀ j : Fin N, (if j.1 < i + 1 then condPow F (i + 1) j *ᵥ v j else 0) =
      F ⟨i, h⟩ *ᵥ (if j.1 < i then condPow F i j *ᵥ v j else 0) + if j = ⟨i, h⟩ then v ⟨i, h⟩ else 0 := by
    intro j
    by_cases h1 : j = ⟨i, h⟩
    · subst h1
      simp [condPow, h]
    · have h2 : j.1 ≠ i := fun h' => h1 (Fin.ext h')
      rw [if_neg h1, add_zero]
      by_cases h3 : j.1 < i
      · rw [if_pos h3, if_pos (by omega)]
        simp [condPow, h, h2, h3, mulVec_mulVec]
      · rw [if_neg h3, if_neg (by omega), mulVec_zero]
  rw [Finset.sum_congr rfl fun j _ => e j, Finset.sum_add_distrib, Finset.sum_ite_eq' Finset.univ]
  simp only [Finset.mem_univ, if_true]
  rw [← mulVecLin_apply, map_sum]
  rfl

theorem condL_mulVec (b : Fin N → BStage p n m K) (u : Fin N → Fin m → K) (i : ℕ) :
    condL b i *ᵥ flatU u =
      ∑ j : Fin N, if j.1 < i then condPow (fun i => (b i).F) i j *ᵥ ((b j).L *ᵥ u j) else 0 := by
  funext a
  rw [Finset.sum_apply]
  simp only [mulVec, dotProduct, condL, of_apply]
  rw [← (finProdFinEquiv (m := N) (n := m)).sum_comp, Fintype.sum_prod_type]
  refine Finset.sum_congr rfl fun j _ => ?_
  simp only [Equiv.symm_apply_apply, flatU]
  split
  · have : (condPow (fun i => (b i).F) i j *ᵥ ((b j).L *ᵥ u j)) a =
        ((condPow (fun i => (b i).F) i j * (b j).L) *ᵥ u j) a := by rw [mulVec_mulVec]
    exact this.symm
  · simp

theorem blkRun_eq (b : Fin N → BStage p n m K) (x : Fin n → K) (u : Fin N → Fin m → K) : ∀ {i : ℕ}, i ≤ N →
    blkRun b x u i = condLam (fun i => (b i).F) i *ᵥ x + condC b i + condL b i *ᵥ flatU u := by
  intro i
  induction i with
  | zero => intro _; simp [blkRun, condLam, condC, condL_mulVec]
  | succ i ih =>
    intro hi
    have h : i < N := hi
    rw [condL_mulVec, condC, pow_sum_succ _ _ h, pow_sum_succ _ _ h, ← condL_mulVec, ← condC]
    simp only [blkRun, condLam, dif_pos h, ih h.le, LStage.next, BStage.toL, mulVec_add, mulVec_mulVec]
    abel

/-! ### Cost of a block -/

section Block
variable (b : Fin N → BStage p n m K)

/-- `Lambda`. -/
def condLambda : Matrix (Fin N × Fin n) (Fin n) K := of fun ia c => condLam (fun i => (b i).F) ia.1 ia.2 c

/-- `Lbar`. -/
def condLbar : Matrix (Fin N × Fin n) (Fin (N * m)) K := of fun ia c => condL b ia.1 ia.2 c

/-- `cbar`. -/
def condCbar : Fin N × Fin n → K := fun ia => condC b ia.1 ia.2

/-- `trans`. -/
def condTrans : Matrix ((Fin N × Fin p) ⊕ Fin (N * m)) (Fin n ⊕ Fin (N * m)) K :=
  fromBlocks (blkDiag (fun i => (b i).H) * condLambda b) (blkDiag (fun i => (b i).H) * condLbar b) 0 1

/-- `XUbar`. -/
def condXU : Matrix ((Fin N × Fin p) ⊕ Fin (N * m)) ((Fin N × Fin p) ⊕ Fin (N * m)) K :=
  fromBlocks (blkDiag fun i => (b i).X) 0 0
    ((blkDiag fun i => (b i).U).submatrix finProdFinEquiv.symm finProdFinEquiv.symm)

/-- `XUMstar`. -/
def condQ : Matrix (Fin n ⊕ Fin (N * m)) (Fin n ⊕ Fin (N * m)) K := (condTrans b)ᵀ * condXU b * condTrans b

/-- `rsbar - tmp`. -/
def condW : (Fin N × Fin p) ⊕ Fin (N * m) → K :=
  Sum.elim (fun ia => (b ia.1).r ia.2) 0 - Sum.elim (blkDiag (fun i => (b i).H) *ᵥ condCbar b) 0

/-- The condensed step. -/
def condStage (rs : Fin n ⊕ Fin (N * m) → K) : LStage n (N * m) K :=
  ⟨n, condLam (fun i => (b i).F) N, condL b N, (condQ b).toBlocks₁₁, (condQ b).toBlocks₂₂, condC b N, 1, rs ∘ Sum.inl, 1,
    rs ∘ Sum.inr, (condQ b).toBlocks₁₂⟩

variable {b}

theorem condXU_symm (hs : ∀ i, (b i).Xᵀ = (b i).X ∧ (b i).Uᵀ = (b i).U) : (condXU b)ᵀ = condXU b := by
  simp only [condXU, fromBlocks_transpose, transpose_zero, transpose_submatrix, blkDiag_transpose fun i => (hs i).1,
    blkDiag_transpose fun i => (hs i).2]

theorem condQ_symm (hs : ∀ i, (b i).Xᵀ = (b i).X ∧ (b i).Uᵀ = (b i).U) : (condQ b)ᵀ = condQ b := by
  simp only [condQ, transpose_mul, transpose_transpose, condXU_symm hs, Matrix.mul_assoc]

theorem condX_states (x : Fin n → K) (u : Fin N → Fin m → K) (i : Fin N) :
    (fun a => (condLambda b *ᵥ x + condCbar b + condLbar b *ᵥ flatU u) (i, a)) = blkRun b x u i := by
  rw [blkRun_eq b x u i.2.le]
  rfl

theorem condTrans_mulVec (x : Fin n → K) (u : Fin N → Fin m → K) :
    condTrans b *ᵥ Sum.elim x (flatU u) - condW b =
      Sum.elim (fun ia => ((b ia.1).H *ᵥ blkRun b x u ia.1 - (b ia.1).r) ia.2) (flatU u) := by
  have e : condTrans b *ᵥ Sum.elim x (flatU u) - condW b =
      Sum.elim (blkDiag (fun i => (b i).H) *ᵥ (condLambda b *ᵥ x + condCbar b + condLbar b *ᵥ flatU u) -
        fun ia => (b ia.1).r ia.2) (flatU u) := by
    unfold condTrans condW
    rw [fromBlocks_mulVec]
    funext k
    rcases k with k | k
    · simp only [Pi.sub_apply, Sum.elim_inl, Sum.elim_comp_inl, Sum.elim_comp_inr, Pi.add_apply, mulVec_add, ← mulVec_mulVec]
      abel
    · simp
  rw [e]
  congr 1
  funext ia
  obtain ⟨i, a⟩ := ia
  rw [Pi.sub_apply, blkDiag_mulVec, condX_states]
  rfl

theorem flatU_quad (U : Fin N → Matrix (Fin m) (Fin m) K) (u : Fin N → Fin m → K) :
    flatU u ⬝ᵥ (blkDiag U).submatrix finProdFinEquiv.symm finProdFinEquiv.symm *ᵥ flatU u =
      ∑ i, u i ⬝ᵥ U i *ᵥ u i := by
  have e : flatU u = (fun ia : Fin N × Fin m => u ia.1 ia.2) ∘ finProdFinEquiv.symm := rfl
  rw [e, submatrix_mulVec_equiv]
  have e2 : ((fun ia : Fin N × Fin m => u ia.1 ia.2) ∘ ⇑finProdFinEquiv.symm) ∘ ⇑(finProdFinEquiv (m := N) (n := m)).symm.symm
      = fun ia => u ia.1 ia.2 := by
    funext ia; simp
  rw [e2, comp_equiv_dotProduct_comp_equiv, blkDiag_dot]

theorem cond_quad (x : Fin n → K) (u : Fin N → Fin m → K) :
    (condTrans b *ᵥ Sum.elim x (flatU u) - condW b) ⬝ᵥ condXU b *ᵥ (condTrans b *ᵥ Sum.elim x (flatU u) - condW b) =
      ∑ i, (((b i).H *ᵥ blkRun b x u i - (b i).r) ⬝ᵥ (b i).X *ᵥ ((b i).H *ᵥ blkRun b x u i - (b i).r) +
        u i ⬝ᵥ (b i).U *ᵥ u i) := by
  rw [condTrans_mulVec, condXU, fromBlocks_mulVec]
  simp only [Sum.elim_comp_inl, Sum.elim_comp_inr, zero_mulVec, add_zero, zero_add]
  rw [sumElim_dotProduct_sumElim, blkDiag_dot, flatU_quad, ← Finset.sum_add_distrib]

theorem condStage_cost [CharZero K] (hs : ∀ i, (b i).Xᵀ = (b i).X ∧ (b i).Uᵀ = (b i).U) (rs : Fin n ⊕ Fin (N * m) → K)
    (x : Fin n → K) (u : Fin (N * m) → K) : (condStage b rs).cost x u =
      (1 / 2) * ((Sum.elim x u - rs) ⬝ᵥ condQ b *ᵥ (Sum.elim x u - rs)) := by
  have h1 : (condStage b rs).cost x u = halfQuad (condQ b).toBlocks₁₁ ((1 : Matrix (Fin n) (Fin n) K) *ᵥ x - rs ∘ Sum.inl) +
      halfQuad (condQ b).toBlocks₂₂ ((1 : Matrix (Fin (N * m)) (Fin (N * m)) K) *ᵥ u - rs ∘ Sum.inr) +
      ((1 : Matrix (Fin n) (Fin n) K) *ᵥ x - rs ∘ Sum.inl) ⬝ᵥ (condQ b).toBlocks₁₂ *ᵥ
        ((1 : Matrix (Fin (N * m)) (Fin (N * m)) K) *ᵥ u - rs ∘ Sum.inr) := rfl
  rw [h1, one_mulVec, one_mulVec]
  have h2 : Sum.elim x u - rs = Sum.elim (x - rs ∘ Sum.inl) (u - rs ∘ Sum.inr) := by
    funext k; rcases k with k | k <;> rfl
  have h3 : (condQ b).toBlocks₂₁ = (condQ b).toBlocks₁₂ᵀ := by
    have := condQ_symm hs
    funext i j
    exact congrFun (congrFun this (.inr i)) (.inl j) ▸ rfl
  rw [h2]
  conv_rhs => rw [← fromBlocks_toBlocks (condQ b), fromBlocks_mulVec]
  simp only [Sum.elim_comp_inl, Sum.elim_comp_inr]
  rw [sumElim_dotProduct_sumElim, h3, dotProduct_add, dotProduct_add,
    ← dot_symm (condQ b).toBlocks₁₂ (x - rs ∘ Sum.inl) (u - rs ∘ Sum.inr)]
  unfold halfQuad
  ring

/-- The steps of a block ignore `Z`, `s`, `M`. -/
def BStage.Plain (s : BStage p n m K) : Prop := s.Z = 1 ∧ s.s = 0 ∧ s.M = 0

theorem plain_cost {s : BStage p n m K} (h : s.Plain) (x : Fin n → K) (u : Fin m → K) : s.toL.cost x u =
    (1 / 2) * ((s.H *ᵥ x - s.r) ⬝ᵥ s.X *ᵥ (s.H *ᵥ x - s.r) + u ⬝ᵥ s.U *ᵥ u) := by
  have h1 : s.toL.cost x u = halfQuad s.X (s.H *ᵥ x - s.r) + halfQuad s.U (s.Z *ᵥ u - s.s) +
    (s.H *ᵥ x - s.r) ⬝ᵥ s.M *ᵥ (s.Z *ᵥ u - s.s) := rfl
  rw [h1, h.1, h.2.1, h.2.2, one_mulVec, sub_zero, zero_mulVec, dotProduct_zero]
  unfold halfQuad
  ring

/-- The constant by which the costs differ. -/
def condConst (b : Fin N → BStage p n m K) (rs : Fin n ⊕ Fin (N * m) → K) : K :=
  (1 / 2) * (condW b ⬝ᵥ condXU b *ᵥ condW b - rs ⬝ᵥ condQ b *ᵥ rs)

theorem block_cost [CharZero K] (hs : ∀ i, (b i).Xᵀ = (b i).X ∧ (b i).Uᵀ = (b i).U) (hp : ∀ i, (b i).Plain)
    {rs : Fin n ⊕ Fin (N * m) → K} (hrs : condQ b *ᵥ rs = ((condTrans b)ᵀ * condXU b) *ᵥ condW b) (x : Fin n → K)
    (u : Fin N → Fin m → K) :
    ∑ i, (b i).toL.cost (blkRun b x u i) (u i) = (condStage b rs).cost x (flatU u) + condConst b rs := by
  rw [Finset.sum_congr rfl fun i _ => plain_cost (hp i) _ _, ← Finset.mul_sum, ← cond_quad, condStage_cost hs,
    quad_affine _ _ (condXU_symm hs), ← condQ, ← hrs]
  have h1 := quad_affine (1 : Matrix (Fin n ⊕ Fin (N * m)) (Fin n ⊕ Fin (N * m)) K) rs (condQ_symm hs) (Sum.elim x (flatU u))
  rw [one_mulVec, transpose_one, Matrix.one_mul, Matrix.mul_one] at h1
  rw [h1, condConst]
  ring

theorem blkRun_next (x : Fin n → K) (u : Fin N → Fin m → K) (rs : Fin n ⊕ Fin (N * m) → K) :
    (condStage b rs).next x (flatU u) = blkRun b x u N := by
  rw [blkRun_eq b x u le_rfl]
  rfl

end Block


/-! ### Runs over several blocks -/

section Lists

theorem lqtTotal_append (g : (Fin n → K) → K) : ∀ {A B : List (LStage n m K)} {ua ub : List (Fin m → K)} (x : Fin n → K),
    ua.length = A.length → lqtTotal g (A ++ B) x (ua ++ ub) = lqtTotal (fun x' => lqtTotal g B x' ub) A x ua
  | [], B, [], ub, x, _ => rfl
  | s :: A, B, u :: ua, ub, x, h => by
    simp only [List.cons_append, lqtTotal]
    rw [lqtTotal_append g _ (by simpa using h)]

theorem lqtRun_append : ∀ {A B : List (LStage n m K)} {ua ub : List (Fin m → K)} (x : Fin n → K),
    ua.length = A.length → lqtRun (A ++ B) x (ua ++ ub) =
      lqtRun A x ua ++ lqtRun B ((x :: lqtRun A x ua).getLast (by simp)) ub
  | [], B, [], ub, x, _ => rfl
  | s :: A, B, u :: ua, ub, x, h => by
    simp only [List.cons_append, lqtRun]
    rw [lqtRun_append _ (by simpa using h)]
    simp

/-- Controls of the steps of one block. -/
def unflat (u : Fin (N * m) → K) : Fin N → Fin m → K := fun i a => u (finProdFinEquiv (i, a))

theorem flat_unflat (u : Fin (N * m) → K) : flatU (unflat u) = u := by
  funext k
  exact congrArg u (finProdFinEquiv.apply_symm_apply k)

theorem unflat_flat (u : Fin N → Fin m → K) : unflat (flatU u) = u := by
  funext i a
  simp [flatU, unflat]

/-- Steps of one block. -/
def blkStages (b : Fin N → BStage p n m K) : List (LStage n m K) := List.ofFn fun i => (b i).toL

theorem blk_total (g : (Fin n → K) → K) (b : Fin N → BStage p n m K) (x : Fin n → K) (u : Fin N → Fin m → K) :
    lqtTotal g (blkStages b) x (List.ofFn u) =
      ∑ i, (b i).toL.cost (blkRun b x u i) (u i) + g (blkRun b x u N) ∧
    x :: lqtRun (blkStages b) x (List.ofFn u) = List.ofFn fun i : Fin (N + 1) => blkRun b x u i := by
  have h := traj_total g (fun i => (b i).toL) u (fun i => blkRun b x u i) (fun i => by
    simp [blkRun])
  refine ⟨h.1, ?_⟩
  rw [List.ofFn_succ]
  exact congrArg (List.cons x) h.2

theorem blk_last (b : Fin N → BStage p n m K) (x : Fin n → K) (u : Fin N → Fin m → K) :
    (x :: lqtRun (blkStages b) x (List.ofFn u)).getLast (by simp) = blkRun b x u N := by
  have h := (blk_total (fun _ => 0) b x u).2
  have h2 := List.ofFn_succ' (f := fun i : Fin (N + 1) => blkRun b x u i)
  simp only [h, h2]
  simp

/-- What `condBlock` returns for a block. -/
structure CondOk (b : Fin N → BStage p n m K) (cb : CBlock N n m K) (κ : K) : Prop where
  next : ∀ x u, cb.stage.next x u = blkRun b x (unflat u) N
  cost : ∀ x u, ∑ i, (b i).toL.cost (blkRun b x (unflat u) i) (unflat u i) = cb.stage.cost x u + κ
  inner : ∀ x u (i : Fin N), (fun a => (cb.Lambda *ᵥ x + cb.cbar + cb.Lbar *ᵥ u) (i, a)) = blkRun b x (unflat u) i

theorem cond_list (g : (Fin n → K) → K) : ∀ {bs : List (Fin N → BStage p n m K)} {cbs : List (CBlock N n m K)} {κs : List K},
    List.Forall₂ (fun b ck => CondOk b ck.1 ck.2) bs (cbs.zip κs) → cbs.length = κs.length →
    ∀ (x : Fin n → K) (us : List (Fin (N * m) → K)), us.length = bs.length →
      lqtTotal g (bs.flatMap blkStages) x (splitControls N us) = lqtTotal g (cbs.map CBlock.stage) x us + κs.sum := by
  intro bs
  induction bs with
  | nil =>
    intro cbs κs h hl x us hu
    cases us with
    | nil =>
      cases h2 : cbs with
      | nil => subst h2; obtain rfl := List.length_eq_zero_iff.1 hl.symm; simp [splitControls, lqtTotal]
      | cons c cs =>
        subst h2
        cases κs with
        | nil => simp at hl
        | cons => simp at h
    | cons => simp at hu
  | cons b bs ih =>
    intro cbs κs h hl x us hu
    cases cbs with
    | nil => simp at h
    | cons c cs =>
      cases κs with
      | nil => simp at hl
      | cons κ κs =>
        cases us with
        | nil => simp at hu
        | cons u us =>
          simp only [List.zip_cons_cons, List.forall₂_cons] at h
          obtain ⟨h1, h2⟩ := h
          have e : splitControls N (u :: us) = List.ofFn (unflat u) ++ splitControls N us := rfl
          rw [e, List.flatMap_cons, lqtTotal_append _ _ (by simp [blkStages]), (blk_total _ b x (unflat u)).1, h1.cost,
            ih h2 (by simpa using hl) _ us (by simpa using hu), ← h1.next]
          simp only [List.map_cons, lqtTotal, List.sum_cons]
          ring

theorem cond_run (hN : 0 < N) : ∀ {bs : List (Fin N → BStage p n m K)} {cbs : List (CBlock N n m K)},
    List.Forall₂ (fun b c => ∃ κ, CondOk b c κ) bs cbs →
    ∀ (x : Fin n → K) (us : List (Fin (N * m) → K)), us.length = bs.length → ∀ k,
      (x :: lqtRun (cbs.map CBlock.stage) x us)[k]? =
        (x :: lqtRun (bs.flatMap blkStages) x (splitControls N us))[N * k]? := by
  intro bs
  induction bs with
  | nil =>
    intro cbs h x us hu k
    cases us with
    | nil =>
      cases h
      cases k with
      | zero => simp
      | succ k =>
        have : ¬ N * (k + 1) = 0 := by positivity
        simp [splitControls, lqtRun, List.getElem?_cons, this]
    | cons => simp at hu
  | cons b bs ih =>
    intro cbs h x us hu k
    cases h with
    | cons h1 h2 =>
      rename_i c cs
      obtain ⟨κ, h1⟩ := h1
      cases us with
      | nil => simp at hu
      | cons u us =>
        have e : splitControls N (u :: us) = List.ofFn (unflat u) ++ splitControls N us := rfl
        have hl : (lqtRun (blkStages b) x (List.ofFn (unflat u))).length = N := by
          rw [lqtRun_length (by simp [blkStages])]; simp
        rw [e, List.flatMap_cons, lqtRun_append _ (by simp [blkStages]), blk_last, ← h1.next]
        cases k with
        | zero => simp
        | succ k =>
          simp only [List.map_cons, lqtRun, List.getElem?_cons_succ]
          rw [ih h2 (c.stage.next x u) us (by simpa using hu) k]
          have e2 : x :: (lqtRun (blkStages b) x (List.ofFn (unflat u)) ++
              lqtRun (bs.flatMap blkStages) (c.stage.next x u) (splitControls N us)) =
              (x :: lqtRun (blkStages b) x (List.ofFn (unflat u))).dropLast ++ (c.stage.next x u ::
              lqtRun (bs.flatMap blkStages) (c.stage.next x u) (splitControls N us)) := by
            have h3 := List.dropLast_append_getLast (l := x :: lqtRun (blkStages b) x (List.ofFn (unflat u))) (by simp)
            rw [blk_last, ← h1.next] at h3
            rw [← List.cons_append]
            conv_lhs => rw [← h3]
            simp
          rw [e2, List.getElem?_append_right (by simp [hl]; nlinarith)]
          congr 1
          simp [hl]
          rw [Nat.mul_add]; omega

/-! ### Expansion -/

theorem convertInner_eq (T : ℕ) (u : Fin (N * m) → K) (x : Fin N × Fin n → K) (A : List (Fin m → K))
    (B : List (Fin n → K)) (h : A.length = B.length) : convertInner T u x (A.take T, B.take T) =
      ((A ++ List.ofFn (unflat u)).take T, (B ++ List.ofFn fun i a => x (i, a)).take T) := by
  have key : ∀ (L : List (Fin N)) (A : List (Fin m → K)) (B : List (Fin n → K)), A.length = B.length →
      L.foldl (fun acc j => if acc.1.length < T then
        (acc.1 ++ [fun a => u (finProdFinEquiv (j, a))], acc.2 ++ [fun a => x (j, a)]) else acc) (A.take T, B.take T) =
      ((A ++ L.map (unflat u)).take T, (B ++ L.map fun i a => x (i, a)).take T) := by
    intro L
    induction L with
    | nil => intro A B _; simp
    | cons j L ih =>
      intro A B h
      rw [List.foldl_cons]
      have e : (if (A.take T, B.take T).1.length < T then
          ((A.take T, B.take T).1 ++ [fun a => u (finProdFinEquiv (j, a))], (A.take T, B.take T).2 ++ [fun a => x (j, a)])
          else (A.take T, B.take T)) = ((A ++ [unflat u j]).take T, (B ++ [fun a => x (j, a)]).take T) := by
        by_cases h1 : A.length < T
        · rw [if_pos (by simp; omega), List.take_of_length_le (by omega : A.length ≤ T),
            List.take_of_length_le (by omega : B.length ≤ T), List.take_of_length_le (by simp; omega),
            List.take_of_length_le (by simp; omega)]
          rfl
        · rw [if_neg (by simp; omega), List.take_append_of_le_length (by omega),
            List.take_append_of_le_length (by omega)]
      rw [e, ih _ _ (by simp [h])]
      simp
  unfold convertInner
  rw [key _ _ _ h, List.ofFn_eq_map, List.ofFn_eq_map]

/-- The states of the steps of the blocks, without the last one. -/
theorem convert_list (T : ℕ) : ∀ {bs : List (Fin N → BStage p n m K)} {cbs : List (CBlock N n m K)},
    List.Forall₂ (fun b c => ∃ κ, CondOk b c κ) bs cbs →
    ∀ (x : Fin n → K) (us : List (Fin (N * m) → K)), us.length = bs.length →
    ∀ (A : List (Fin m → K)) (B : List (Fin n → K)), A.length = B.length →
      (List.range us.length).foldlM (fun acc i => do
        let u ← pyGet us i
        let x ← pyGet (x :: lqtRun (cbs.map CBlock.stage) x us) i
        let b ← pyGet cbs i
        return convertInner T u (b.Lambda *ᵥ x + b.cbar + b.Lbar *ᵥ u) acc) (A.take T, B.take T) =
      (.ok ((A ++ splitControls N us).take T,
        (B ++ (x :: lqtRun (bs.flatMap blkStages) x (splitControls N us)).dropLast).take T) :
        Py (List (Fin m → K) × List (Fin n → K))) ∧
      (x :: lqtRun (cbs.map CBlock.stage) x us).getLast (by simp) =
        (x :: lqtRun (bs.flatMap blkStages) x (splitControls N us)).getLast (by simp) := by
  intro bs
  induction bs with
  | nil =>
    intro cbs h x us hu A B hAB
    cases us with
    | nil => simp [splitControls, lqtRun, pure, Except.pure]
    | cons => simp at hu
  | cons b bs ih =>
    intro cbs h x us hu A B hAB
    cases h with
    | cons h1 h2 =>
      rename_i c cs
      obtain ⟨κ, h1⟩ := h1
      cases us with
      | nil => simp at hu
      | cons u us =>
        have e : splitControls N (u :: us) = List.ofFn (unflat u) ++ splitControls N us := rfl
        have e2 : x :: (lqtRun (blkStages b) x (List.ofFn (unflat u)) ++
            lqtRun (bs.flatMap blkStages) (c.stage.next x u) (splitControls N us)) =
            (x :: lqtRun (blkStages b) x (List.ofFn (unflat u))).dropLast ++ (c.stage.next x u ::
            lqtRun (bs.flatMap blkStages) (c.stage.next x u) (splitControls N us)) := by
          have h3 := List.dropLast_append_getLast (l := x :: lqtRun (blkStages b) x (List.ofFn (unflat u))) (by simp)
          rw [blk_last, ← h1.next] at h3
          rw [← List.cons_append]
          conv_lhs => rw [← h3]
          simp
        have e3 : (x :: lqtRun (blkStages b) x (List.ofFn (unflat u))).dropLast =
            List.ofFn fun i a => (c.Lambda *ᵥ x + c.cbar + c.Lbar *ᵥ u) (i, a) := by
          rw [(blk_total (fun _ => 0) b x (unflat u)).2, List.ofFn_succ']
          simp only [List.concat_eq_append, List.dropLast_concat]
          congr 1
          funext i
          exact (h1.inner x u i).symm
        obtain ⟨ih1, ih2⟩ := ih h2 (c.stage.next x u) us (by simpa using hu)
          (A ++ List.ofFn (unflat u)) (B ++ List.ofFn fun i a => (c.Lambda *ᵥ x + c.cbar + c.Lbar *ᵥ u) (i, a))
          (by simp [hAB])
        simp only [e, List.flatMap_cons, lqtRun_append _ (show (List.ofFn (unflat u)).length = (blkStages b).length by
          simp [blkStages]), blk_last, ← h1.next]
        simp only [e2]
        constructor
        · rw [List.length_cons, List.range_succ_eq_map, List.foldlM_cons]
          simp only [List.foldlM_map]
          have hz : ∀ {β : Type} (a : β) (l : List β), pyGet (a :: l) 0 = .ok a := fun a l => rfl
          have hsuc : ∀ {β : Type} (a : β) (l : List β) i, pyGet (a :: l) (i + 1) = pyGet l i := by
            intro β a l i
            simp [pyGet]
          simp only [hz, List.map_cons, lqtRun, Nat.succ_eq_add_one, hsuc]
          have hb : ∀ {α β : Type} (a : α) (f : α → Py β), ((Except.ok a : Py α) >>= f) = f a := fun _ _ => rfl
          simp only [hb, pure, Except.pure]
          rw [convertInner_eq _ _ _ _ _ hAB]
          rw [show (x :: lqtRun (blkStages b) x (List.ofFn (unflat u))).dropLast ++ (c.stage.next x u ::
              lqtRun (bs.flatMap blkStages) (c.stage.next x u) (splitControls N us)) = _ from rfl,
            List.dropLast_append_of_ne_nil (by simp), e3]
          rw [← List.append_assoc, ← List.append_assoc]
          exact ih1
        · rw [List.getLast_append_of_ne_nil _ (by simp)]
          simp only [List.map_cons, lqtRun]
          rw [← ih2]
          simp

theorem convertUX_eq (T : ℕ) {bs : List (Fin N → BStage p n m K)} {cbs : List (CBlock N n m K)}
    (h : List.Forall₂ (fun b c => ∃ κ, CondOk b c κ) bs cbs) (x : Fin n → K) (us : List (Fin (N * m) → K))
    (hu : us.length = bs.length) : convertUX T cbs us (x :: lqtRun (cbs.map CBlock.stage) x us) =
      .ok ((splitControls N us).take T,
        (x :: lqtRun (bs.flatMap blkStages) x (splitControls N us)).dropLast.take T ++
        [(x :: lqtRun (bs.flatMap blkStages) x (splitControls N us)).getLast (by simp)]) := by
  obtain ⟨h1, h2⟩ := convert_list T h x us hu [] [] rfl
  simp only [List.take_nil, List.nil_append] at h1
  unfold convertUX
  rw [h1]
  have h3 := List.getLast?_eq_some_getLast (l := x :: lqtRun (cbs.map CBlock.stage) x us) (by simp)
  rw [h2] at h3
  rw [h3]
  rfl

end Lists

end Verif
