import Verif.Model.LQTTensor
import Verif.Proof.CondensingTensor
import Verif.Proof.CondensingTensorTop
import Verif.Proof.CondensingTensorConvert

/-! Lemmas on linear algebra with tensors: matrices, vectors and batches of them. -/

namespace Verif

open Matrix

variable {K β : Type} {a b c : ℕ}

/-- Item `k` of the batch is the matrix `f bs[k]`. -/
abbrev Tens.HM (t : Tens K) (bs : List β) (f : β → Matrix (Fin a) (Fin b) K) : Prop := t.IsMt (Equiv.refl _) (Equiv.refl _) bs f

/-- Item `k` of the batch is the vector `f bs[k]`. -/
abbrev Tens.HV (t : Tens K) (bs : List β) (f : β → Fin a → K) : Prop := t.IsVt (Equiv.refl _) bs f

theorem Tens.hM_iff {t : Tens K} {bs : List β} {f : β → Matrix (Fin a) (Fin b) K} :
    t.HM bs f ↔ t.IsB [a, b] (fun v x => ∀ (i : Fin a) (j : Fin b), v [i.val, j.val] = f x i j) bs := Iff.rfl

theorem Tens.hV_iff {t : Tens K} {bs : List β} {f : β → Fin a → K} :
    t.HV bs f ↔ t.IsB [a] (fun v x => ∀ i : Fin a, v [i.val] = f x i) bs := Iff.rfl

theorem Tens.IsMt.fcongr {t : Tens K} {bs : List β} {f g : β → Matrix (Fin a) (Fin b) K} (h : t.HM bs f) (e : ∀ x ∈ bs, f x = g x) : t.HM bs g :=
  h.congr rfl fun k hk _ => e _ (List.getElem_mem hk)

theorem Tens.IsVt.fcongr {t : Tens K} {bs : List β} {f g : β → Fin a → K} (h : t.HV bs f) (e : ∀ x ∈ bs, f x = g x) : t.HV bs g :=
  h.congr rfl fun k hk _ => e _ (List.getElem_mem hk)

theorem map_eq_get {γ δ : Type} {bs : List β} {f : β → δ} {cs : List γ} {g : γ → δ} (e : bs.map f = cs.map g) :
    bs.length = cs.length ∧ ∀ (k : ℕ) (h : k < bs.length) (h' : k < cs.length), f bs[k] = g cs[k] := by
  refine ⟨by simpa using congrArg List.length e, fun k h h' => ?_⟩
  have e1 : (bs.map f)[k]? = (cs.map g)[k]? := by rw [e]
  simpa [h, h'] using e1

/-- The same items numbered by another list. -/
theorem Tens.IsMt.remap {γ : Type} {t : Tens K} {bs : List β} {f : β → Matrix (Fin a) (Fin b) K} {cs : List γ}
    {g : γ → Matrix (Fin a) (Fin b) K} (h : t.HM bs f) (e : bs.map f = cs.map g) : t.HM cs g :=
  h.congr (map_eq_get e).1 (map_eq_get e).2

theorem Tens.IsVt.remap {γ : Type} {t : Tens K} {bs : List β} {f : β → Fin a → K} {cs : List γ}
    {g : γ → Fin a → K} (h : t.HV bs f) (e : bs.map f = cs.map g) : t.HV cs g :=
  h.congr (map_eq_get e).1 (map_eq_get e).2

theorem Tens.IsMt.bin {t t' : Tens K} {bs : List β} {f g : β → Matrix (Fin a) (Fin b) K} (op : K → K → K)
    (h : t.HM bs f) (h' : t'.HM bs g) : ∃ r, t.bin op t' = .ok r ∧ r.HM bs fun x => Matrix.of fun i j => op (f x i j) (g x i j) := by
  obtain ⟨s, v⟩ := t
  obtain ⟨s', v'⟩ := t'
  obtain ⟨h1, h2⟩ := h
  obtain ⟨h3, h4⟩ := h'
  dsimp only at h1 h2 h3 h4
  subst h1 h3
  obtain ⟨w, hw, hv⟩ := bin_same3 (f := op) (p := bs.length) (n := a) (m := b) v v'
  refine ⟨_, hw, rfl, fun k hk i j => ?_⟩
  have e := hv k i j hk i.2 j.2
  have e2 := h2 k hk i j
  have e4 := h4 k hk i j
  simp only [Equiv.refl_apply] at e2 e4 ⊢
  rw [e, e2, e4]; rfl

theorem Tens.IsMt.add [Field K] {t t' : Tens K} {bs : List β} {f g : β → Matrix (Fin a) (Fin b) K}
    (h : t.HM bs f) (h' : t'.HM bs g) : ∃ r, t.bin (· + ·) t' = .ok r ∧ r.HM bs fun x => f x + g x := h.bin _ h'

theorem Tens.IsMt.sub [Field K] {t t' : Tens K} {bs : List β} {f g : β → Matrix (Fin a) (Fin b) K}
    (h : t.HM bs f) (h' : t'.HM bs g) : ∃ r, t.bin (· - ·) t' = .ok r ∧ r.HM bs fun x => f x - g x := h.bin _ h'

theorem Tens.IsVt.add [Field K] {t t' : Tens K} {bs : List β} {f g : β → Fin a → K}
    (h : t.HV bs f) (h' : t'.HV bs g) : ∃ r, t.bin (· + ·) t' = .ok r ∧ r.HV bs fun x => f x + g x := Tens.IsVt.bin _ h h'

theorem Tens.IsVt.sub [Field K] {t t' : Tens K} {bs : List β} {f g : β → Fin a → K}
    (h : t.HV bs f) (h' : t'.HV bs g) : ∃ r, t.bin (· - ·) t' = .ok r ∧ r.HV bs fun x => f x - g x := Tens.IsVt.bin _ h h'

theorem Tens.IsVt.neg [Field K] {t : Tens K} {bs : List β} {f : β → Fin a → K}
    (h : t.HV bs f) : (t.map (- ·)).HV bs fun x => -f x :=
  ⟨h.1, fun k hk i => congrArg (- ·) (h.2 k hk i)⟩

section Ring
variable [Field K]

/-- The identity of one item added to every item. -/
theorem Tens.IsMt.eyeAdd {t : Tens K} {bs : List β} {f : β → Matrix (Fin a) (Fin a) K} (h : t.HM bs f) :
    ∃ I r, (Tens.eye2 a : Tens K).expandDims 0 = .ok I ∧ I.bin (· + ·) t = .ok r ∧ r.HM bs fun x => 1 + f x := by
  obtain ⟨s, v⟩ := t
  obtain ⟨h1, h2⟩ := h
  dsimp only at h1 h2
  subst h1
  refine ⟨⟨[1, a, a], fun i => (Tens.eye2 a : Tens K).val (i.eraseIdx 0)⟩, _, rfl,
    Tens.bin_eq (s := [bs.length, a, a]) (by simp [padShape]) (by simp [padShape, one_or]), by simp, fun k hk i j => ?_⟩
  dsimp only
  have e := h2 k hk i j
  simp only [Equiv.refl_apply] at e ⊢
  rw [Matrix.add_apply, ← e, one_apply]
  have hi := i.2
  have hj := j.2
  simp [bcastIdx, padShape, bc_lt, hk, Tens.eye2, Fin.val_inj]

theorem Tens.IsMt.mm {t t' : Tens K} {bs : List β} {f : β → Matrix (Fin a) (Fin b) K} {g : β → Matrix (Fin b) (Fin c) K}
    (h : t.HM bs f) (h' : t'.HM bs g) : ∃ r, t.mm t' = .ok r ∧ r.HM bs fun x => f x * g x := by
  obtain ⟨r, e, hr⟩ := Tens.IsMt.matmul h h'
  refine ⟨r, ?_, hr⟩
  rw [← e, Tens.mm, h.1]

theorem Tens.IsMt.mv {t t' : Tens K} {bs : List β} {f : β → Matrix (Fin a) (Fin b) K} {g : β → Fin b → K}
    (h : t.HM bs f) (h' : t'.HV bs g) : ∃ r, t.mv t' = .ok r ∧ r.HV bs fun x => f x *ᵥ g x := by
  obtain ⟨r, e, hr⟩ := Tens.IsMt.matvec h h'
  refine ⟨r, ?_, hr⟩
  rw [← e, Tens.mv, h.1]

theorem Tens.IsMt.mT {t : Tens K} {bs : List β} {f : β → Matrix (Fin a) (Fin b) K}
    (h : t.HM bs f) : ∃ r, t.mT = .ok r ∧ r.HM bs fun x => (f x)ᵀ := by
  obtain ⟨r, e, hr⟩ := Tens.IsMt.batchT h
  refine ⟨r, ?_, hr⟩
  rw [← e, Tens.mT, h.1]

theorem matTens_isM (A : Matrix (Fin a) (Fin b) K) : (matTens A).IsM A := by
  refine ⟨rfl, fun x y => ?_⟩
  simp [matTens]

/-- Stacking the items. -/
theorem stack_hM {l : List (Tens K)} {bs : List β} {f : β → Matrix (Fin a) (Fin b) K} (d : List ℕ → K)
    (h : List.Forall₂ (fun t x => t.IsM (f x)) l bs) : ∃ r, Tens.stack [a, b] d l = .ok r ∧ r.HM bs f := by
  have hs : (l.all fun t => t.shape = [a, b]) = true := by
    rw [List.all_eq_true]
    intro t ht
    obtain ⟨i, hi, rfl⟩ := List.getElem_of_mem ht
    exact decide_eq_true (h.get hi (by rw [← h.length_eq]; exact hi)).1
  have hl := h.length_eq
  refine ⟨_, if_pos hs, by rw [hl], fun k hk i j => ?_⟩
  have hk' : k < l.length := by omega
  have e := (h.get hk' hk).2 i j
  simpa [hk'] using e

theorem stack_hV {l : List (Tens K)} {bs : List β} {f : β → Fin a → K} (d : List ℕ → K)
    (h : List.Forall₂ (fun t x => t.IsV (f x)) l bs) : ∃ r, Tens.stack [a] d l = .ok r ∧ r.HV bs f := by
  have hs : (l.all fun t => t.shape = [a]) = true := by
    rw [List.all_eq_true]
    intro t ht
    obtain ⟨i, hi, rfl⟩ := List.getElem_of_mem ht
    exact decide_eq_true (h.get hi (by rw [← h.length_eq]; exact hi)).1
  have hl := h.length_eq
  refine ⟨_, if_pos hs, by rw [hl], fun k hk i => ?_⟩
  have hk' : k < l.length := by omega
  have e := (h.get hk' hk).2 i
  simpa [hk'] using e

/-- A loop over the items that fails with one error. -/
theorem mapM_ite {γ : Type} {F : β → Py γ} {P : β → Prop} {G : β → γ} {er : PyErr} {bs : List β}
    (h1 : ∀ x ∈ bs, P x → F x = .ok (G x)) (h2 : ∀ x ∈ bs, ¬ P x → F x = .error er) :
    ((∀ x ∈ bs, P x) → bs.mapM F = .ok (bs.map G)) ∧ ((¬ ∀ x ∈ bs, P x) → bs.mapM F = .error er) := by
  induction bs with
  | nil => exact ⟨fun _ => rfl, fun h => absurd (by simp) h⟩
  | cons x bs ih =>
    obtain ⟨i1, i2⟩ := ih (fun y hy => h1 y (by simp [hy])) (fun y hy => h2 y (by simp [hy]))
    constructor
    · intro h
      rw [List.mapM_cons, h1 x (by simp) (h x (by simp)), i1 fun y hy => h y (by simp [hy])]
      rfl
    · intro h
      rw [List.mapM_cons]
      by_cases hx : P x
      · rw [h1 x (by simp) hx, tens_bind, i2 fun hall => h fun y hy => by
          rcases List.mem_cons.1 hy with rfl | hy
          · exact hx
          · exact hall y hy]
        rfl
      · rw [h2 x (by simp) hx]
        rfl

theorem forall₂_map_self {α γ : Type} {R : α → γ → Prop} (g : γ → α) (l : List γ) (h : ∀ x ∈ l, R (g x) x) : List.Forall₂ R (l.map g) l := by
  induction l with
  | nil => exact .nil
  | cons x l ih => exact .cons (h x (by simp)) (ih fun y hy => h y (by simp [hy]))

/-- A batched operation that works on each item. -/
theorem batch_op {F : β → Py (Matrix (Fin a) (Fin c) K)} {P : β → Prop} {G : β → Matrix (Fin a) (Fin c) K} {er : PyErr} {bs : List β}
    {H : ℕ → Py (Matrix (Fin a) (Fin c) K)} (hH : ∀ (k : ℕ) (hk : k < bs.length), H k = F bs[k])
    (h1 : ∀ x ∈ bs, P x → F x = .ok (G x)) (h2 : ∀ x ∈ bs, ¬ P x → F x = .error er) :
    ((∀ x ∈ bs, P x) → ∃ r, (do
      let l ← (List.range bs.length).mapM fun k => do
        let x ← H k
        return matTens x
      Tens.stack [a, c] (fun _ => 0) l : Py (Tens K)) = .ok r ∧ r.HM bs G) ∧
    ((¬ ∀ x ∈ bs, P x) → (do
      let l ← (List.range bs.length).mapM fun k => do
        let x ← H k
        return matTens x
      Tens.stack [a, c] (fun _ => 0) l : Py (Tens K)) = .error er) := by
  have e : ((List.range bs.length).mapM fun k => do let x ← H k; return matTens x) =
      bs.mapM (fun x => (do let y ← F x; return matTens y : Py (Tens K))) :=
    mapM_range _ _ bs fun k hk => by rw [hH k hk]
  rw [e]
  obtain ⟨i1, i2⟩ := mapM_ite (F := fun x => (do let y ← F x; return matTens y : Py (Tens K))) (P := P) (G := fun x => matTens (G x))
    (er := er) (bs := bs) (fun x hx hp => by rw [h1 x hx hp]; rfl) (fun x hx hp => by rw [h2 x hx hp]; rfl)
  constructor
  · intro h
    obtain ⟨r, hr, hr'⟩ := stack_hM (l := bs.map fun x => matTens (G x)) (bs := bs) (f := G) (fun _ => 0)
      (forall₂_map_self _ _ fun x _ => matTens_isM _)
    exact ⟨r, by rw [i1 h]; exact hr, hr'⟩
  · intro h
    rw [i2 h]
    rfl

theorem Tens.IsMt.getMat {t : Tens K} {bs : List β} {f : β → Matrix (Fin a) (Fin b) K} (h : t.HM bs f) {k : ℕ} (hk : k < bs.length) :
    (Matrix.of fun (i : Fin a) (j : Fin b) => t.val [k, i.val, j.val]) = f bs[k] := by
  ext i j
  exact h.2 k hk i j

theorem luFactor_det [DecidableEq K] {A : Matrix (Fin a) (Fin a) K} : (A.det ≠ 0 → luFactor A = .ok (minv A)) ∧ (¬ A.det ≠ 0 → luFactor A = .error .linAlgError) :=
  ⟨fun h => if_neg h, fun h => if_pos (not_not.1 h)⟩

theorem Tens.IsMt.lu [DecidableEq K] {t : Tens K} {bs : List β} {f : β → Matrix (Fin a) (Fin a) K} (h : t.HM bs f) :
    ((∀ x ∈ bs, (f x).det ≠ 0) → ∃ r, t.lu = .ok r ∧ r.HM bs fun x => minv (f x)) ∧
    ((¬ ∀ x ∈ bs, (f x).det ≠ 0) → t.lu = .error .linAlgError) := by
  have e : t.lu = (do
      let l ← (List.range bs.length).mapM fun k => do
        let x ← luFactor (Matrix.of fun i j : Fin a => t.val [k, i.val, j.val])
        return matTens x
      Tens.stack [a, a] (fun _ => 0) l) := by
    rw [Tens.lu, h.1]; exact if_pos rfl
  rw [e]
  exact batch_op (F := fun x => luFactor (f x)) (P := fun x => (f x).det ≠ 0) (fun k hk => by rw [h.getMat hk])
    (fun x _ hx => luFactor_det.1 hx) (fun x _ hx => luFactor_det.2 hx)

theorem solve_det [DecidableEq K] {A : Matrix (Fin a) (Fin a) K} {B : Matrix (Fin a) (Fin b) K} :
    (A.det ≠ 0 → solve A B = .ok (minv A * B)) ∧ (¬ A.det ≠ 0 → solve A B = .error .linAlgError) :=
  ⟨fun h => by rw [solve, luFactor_det.1 h]; rfl, fun h => by rw [solve, luFactor_det.2 h]; rfl⟩

theorem Tens.IsMt.solveM [DecidableEq K] {t t' : Tens K} {bs : List β} {f : β → Matrix (Fin a) (Fin a) K} {g : β → Matrix (Fin a) (Fin b) K}
    (h : t.HM bs f) (h' : t'.HM bs g) :
    ((∀ x ∈ bs, (f x).det ≠ 0) → ∃ r, t.solveM t' = .ok r ∧ r.HM bs fun x => minv (f x) * g x) ∧
    ((¬ ∀ x ∈ bs, (f x).det ≠ 0) → t.solveM t' = .error .linAlgError) := by
  have e : t.solveM t' = (do
      let l ← (List.range bs.length).mapM fun k => do
        let x ← Verif.solve (Matrix.of fun i j : Fin a => t.val [k, i.val, j.val]) (Matrix.of fun (i : Fin a) (j : Fin b) => t'.val [k, i.val, j.val])
        return matTens x
      Tens.stack [a, b] (fun _ => 0) l) := by
    rw [Tens.solveM, h.1, h'.1]; exact if_pos ⟨rfl, rfl, rfl⟩
  rw [e]
  exact batch_op (F := fun x => Verif.solve (f x) (g x)) (P := fun x => (f x).det ≠ 0) (fun k hk => by rw [h.getMat hk, h'.getMat hk])
    (fun x _ hx => solve_det.1 hx) (fun x _ hx => solve_det.2 hx)

theorem tfCholesky_pd [LinearOrder K] {A : Matrix (Fin a) (Fin a) K} :
    (choPD (lowerSym A) = true → tfCholesky A = .ok (minv (lowerSym A))) ∧ (¬ choPD (lowerSym A) = true → tfCholesky A = .error .linAlgError) :=
  ⟨fun h => if_pos h, fun h => if_neg h⟩

theorem Tens.IsMt.cholesky [LinearOrder K] {t : Tens K} {bs : List β} {f : β → Matrix (Fin a) (Fin a) K} (h : t.HM bs f) :
    ((∀ x ∈ bs, choPD (lowerSym (f x)) = true) → ∃ r, t.cholesky = .ok r ∧ r.HM bs fun x => minv (lowerSym (f x))) ∧
    ((¬ ∀ x ∈ bs, choPD (lowerSym (f x)) = true) → t.cholesky = .error .linAlgError) := by
  have e : t.cholesky = (do
      let l ← (List.range bs.length).mapM fun k => do
        let x ← tfCholesky (Matrix.of fun i j : Fin a => t.val [k, i.val, j.val])
        return matTens x
      Tens.stack [a, a] (fun _ => 0) l) := by
    rw [Tens.cholesky, h.1]; exact if_pos rfl
  rw [e]
  exact batch_op (F := fun x => tfCholesky (f x)) (P := fun x => choPD (lowerSym (f x)) = true) (fun k hk => by rw [h.getMat hk])
    (fun x _ hx => tfCholesky_pd.1 hx) (fun x _ hx => tfCholesky_pd.2 hx)

/-- Vectors as matrices with one column. -/
theorem Tens.IsVt.col {t : Tens K} {bs : List β} {g : β → Fin a → K} (h : t.HV bs g) :
    ∃ q, t.expandDims (-1) = .ok q ∧ q.HM bs fun x => (Matrix.of fun (i : Fin a) (_ : Fin 1) => g x i) := by
  obtain ⟨s, v⟩ := t
  obtain ⟨h1, h2⟩ := h
  dsimp only at h1 h2
  subst h1
  refine ⟨⟨[bs.length, a, 1], fun i => v (i.eraseIdx 2)⟩, rfl, rfl, fun k hk i j => ?_⟩
  exact h2 k hk i

theorem Tens.IsMt.uncol {t : Tens K} {bs : List β} {g : β → Matrix (Fin a) (Fin 1) K} (h : t.HM bs g) :
    ∃ q, t.select (-1) 0 = .ok q ∧ q.HV bs fun x i => g x i 0 := by
  obtain ⟨s, v⟩ := t
  obtain ⟨h1, h2⟩ := h
  dsimp only at h1 h2
  subst h1
  exact ⟨⟨[bs.length, a], fun i => v (i.insertIdx 2 0)⟩, rfl, rfl, fun k hk i => h2 k hk i 0⟩

/-- The product with a vector written as a matrix with one column. -/
theorem Tens.IsMt.mmCol {t t' : Tens K} {bs : List β} {f : β → Matrix (Fin b) (Fin a) K} {g : β → Fin a → K} (h : t.HM bs f) (h' : t'.HV bs g) :
    ∃ q r y, t'.expandDims (-1) = .ok q ∧ t.mm q = .ok r ∧ r.select (-1) 0 = .ok y ∧ y.HV bs fun x => f x *ᵥ g x := by
  obtain ⟨q, e1, hq⟩ := h'.col
  obtain ⟨r, e2, hr⟩ := h.mm hq
  obtain ⟨y, e3, hy⟩ := hr.uncol
  exact ⟨q, r, y, e1, e2, e3, hy⟩

/-! Single matrices and vectors. -/

theorem Tens.IsM.mm {t t' : Tens K} {A : Matrix (Fin a) (Fin b) K} {B : Matrix (Fin b) (Fin c) K} (h : t.IsM A) (h' : t'.IsM B) :
    ∃ r, t.mm t' = .ok r ∧ r.IsM (A * B) := by
  obtain ⟨s, v⟩ := t
  obtain ⟨s', v'⟩ := t'
  obtain ⟨h1, h2⟩ := h
  obtain ⟨h3, h4⟩ := h'
  dsimp only at h1 h2 h3 h4
  subst h1 h3
  refine ⟨_, if_pos rfl, rfl, fun i j => ?_⟩
  dsimp only
  rw [Finset.sum_range, mul_apply]
  exact Finset.sum_congr rfl fun x _ => by rw [← h2 i x, ← h4 x j]; rfl

theorem Tens.IsM.mv {t t' : Tens K} {A : Matrix (Fin a) (Fin b) K} {B : Fin b → K} (h : t.IsM A) (h' : t'.IsV B) :
    ∃ r, t.mv t' = .ok r ∧ r.IsV (A *ᵥ B) := by
  obtain ⟨s, v⟩ := t
  obtain ⟨s', v'⟩ := t'
  obtain ⟨h1, h2⟩ := h
  obtain ⟨h3, h4⟩ := h'
  dsimp only at h1 h2 h3 h4
  subst h1 h3
  refine ⟨_, if_pos rfl, rfl, fun i => ?_⟩
  dsimp only
  rw [Finset.sum_range, mulVec, dotProduct]
  exact Finset.sum_congr rfl fun x _ => by rw [← h2 i x, ← h4 x]; rfl

theorem Tens.IsM.mT {t : Tens K} {A : Matrix (Fin a) (Fin b) K} (h : t.IsM A) : ∃ r, t.mT = .ok r ∧ r.IsM Aᵀ := by
  obtain ⟨s, v⟩ := t
  obtain ⟨h1, h2⟩ := h
  dsimp only at h1 h2
  subst h1
  exact ⟨_, rfl, rfl, fun i j => h2 j i⟩

theorem Tens.IsM.bin {t t' : Tens K} {A B : Matrix (Fin a) (Fin b) K} (op : K → K → K) (h : t.IsM A) (h' : t'.IsM B) :
    ∃ r, t.bin op t' = .ok r ∧ r.IsM (Matrix.of fun i j => op (A i j) (B i j)) := by
  obtain ⟨s, v⟩ := t
  obtain ⟨s', v'⟩ := t'
  obtain ⟨h1, h2⟩ := h
  obtain ⟨h3, h4⟩ := h'
  dsimp only at h1 h2 h3 h4
  subst h1 h3
  obtain ⟨w, hw, hv⟩ := bin_same2 (f := op) (n := a) (m := b) v v'
  refine ⟨_, hw, rfl, fun i j => ?_⟩
  have e := hv i j i.2 j.2
  dsimp only
  rw [e, h2 i j, h4 i j]; rfl

theorem Tens.IsV.bin {t t' : Tens K} {A B : Fin a → K} (op : K → K → K) (h : t.IsV A) (h' : t'.IsV B) :
    ∃ r, t.bin op t' = .ok r ∧ r.IsV (fun i => op (A i) (B i)) := by
  obtain ⟨s, v⟩ := t
  obtain ⟨s', v'⟩ := t'
  obtain ⟨h1, h2⟩ := h
  obtain ⟨h3, h4⟩ := h'
  dsimp only at h1 h2 h3 h4
  subst h1 h3
  refine ⟨_, Tens.bin_eq (s := [a]) (by simp [padShape]) (by simp [padShape, one_or]), by simp, fun i => ?_⟩
  dsimp only
  rw [← h2 i, ← h4 i]
  have hi : i.val < a := i.2
  simp [bcastIdx, padShape, bc_lt]

theorem Tens.IsM.add {t t' : Tens K} {A B : Matrix (Fin a) (Fin b) K} (h : t.IsM A) (h' : t'.IsM B) :
    ∃ r, t.bin (· + ·) t' = .ok r ∧ r.IsM (A + B) := h.bin _ h'

theorem Tens.IsM.sub {t t' : Tens K} {A B : Matrix (Fin a) (Fin b) K} (h : t.IsM A) (h' : t'.IsM B) :
    ∃ r, t.bin (· - ·) t' = .ok r ∧ r.IsM (A - B) := h.bin _ h'

theorem Tens.IsV.add {t t' : Tens K} {A B : Fin a → K} (h : t.IsV A) (h' : t'.IsV B) :
    ∃ r, t.bin (· + ·) t' = .ok r ∧ r.IsV (A + B) := h.bin _ h'

theorem Tens.IsV.sub {t t' : Tens K} {A B : Fin a → K} (h : t.IsV A) (h' : t'.IsV B) :
    ∃ r, t.bin (· - ·) t' = .ok r ∧ r.IsV (A - B) := h.bin _ h'

theorem Tens.IsV.neg {t : Tens K} {A : Fin a → K} (h : t.IsV A) : (t.map (- ·)).IsV (-A) :=
  ⟨h.1, fun i => congrArg (- ·) (h.2 i)⟩

theorem Tens.IsM.cholesky [LinearOrder K] {t : Tens K} {A : Matrix (Fin a) (Fin a) K} (h : t.IsM A) :
    (∀ f, tfCholesky A = .ok f → ∃ r, t.cholesky = .ok r ∧ r.IsM f) ∧ ∀ e, tfCholesky A = .error e → t.cholesky = .error e := by
  have e : t.cholesky = (do let x ← tfCholesky (Matrix.of fun i j : Fin a => t.val [i.val, j.val]); return matTens x) := by
    rw [Tens.cholesky, h.1]; exact if_pos rfl
  have e' : (Matrix.of fun i j : Fin a => t.val [i.val, j.val]) = A := by ext i j; exact h.2 i j
  rw [e, e']
  refine ⟨fun f hf => ?_, fun er hf => ?_⟩
  · rw [hf]; exact ⟨_, rfl, matTens_isM f⟩
  · rw [hf]; rfl

theorem Tens.IsM.mmCol {t t' : Tens K} {A : Matrix (Fin b) (Fin a) K} {v : Fin a → K} (h : t.IsM A) (h' : t'.IsV v) :
    ∃ q r y, t'.expandDims (-1) = .ok q ∧ t.mm q = .ok r ∧ r.select (-1) 0 = .ok y ∧ y.IsV (A *ᵥ v) := by
  obtain ⟨s, w⟩ := t'
  obtain ⟨h1, h2⟩ := h'
  dsimp only at h1 h2
  subst h1
  have hq : (⟨[a, 1], fun i => w (i.eraseIdx 1)⟩ : Tens K).IsM (Matrix.of fun (i : Fin a) (_ : Fin 1) => v i) := ⟨rfl, fun i j => h2 i⟩
  obtain ⟨r, e2, hr⟩ := h.mm hq
  obtain ⟨s, u⟩ := r
  obtain ⟨h3, h4⟩ := hr
  dsimp only at h3 h4
  subst h3
  exact ⟨_, _, ⟨[b], fun i => u (i.insertIdx 1 0)⟩, rfl, e2, rfl, rfl, fun i => h4 i 0⟩

end Ring

/-! Items of a batch. -/

theorem Tens.IsMt.items {t : Tens K} {bs : List β} {f : β → Matrix (Fin a) (Fin b) K} (h : t.HM bs f) :
    ∃ l, t.items = .ok l ∧ List.Forall₂ (fun s x => s.IsM (f x)) l bs := by
  obtain ⟨s, v⟩ := t
  obtain ⟨h1, h2⟩ := h
  dsimp only at h1 h2
  subst h1
  refine ⟨_, rfl, ?_⟩
  rw [List.forall₂_iff_get]
  refine ⟨by simp, fun k hk hk' => ?_⟩
  refine ⟨by simp, fun i j => ?_⟩
  simpa using h2 k hk' i j

theorem Tens.IsVt.items {t : Tens K} {bs : List β} {f : β → Fin a → K} (h : t.HV bs f) :
    ∃ l, t.items = .ok l ∧ List.Forall₂ (fun s x => s.IsV (f x)) l bs := by
  obtain ⟨s, v⟩ := t
  obtain ⟨h1, h2⟩ := h
  dsimp only at h1 h2
  subst h1
  refine ⟨_, rfl, ?_⟩
  rw [List.forall₂_iff_get]
  refine ⟨by simp, fun k hk hk' => ?_⟩
  refine ⟨by simp, fun i => ?_⟩
  simpa using h2 k hk' i

theorem Tens.IsMt.reverse {t : Tens K} {bs : List β} {f : β → Matrix (Fin a) (Fin b) K} (h : t.HM bs f) :
    ∃ r, t.reverse = .ok r ∧ r.HM bs.reverse f := Tens.IsB.reverse (Tens.hM_iff.1 h)

theorem Tens.IsVt.reverse {t : Tens K} {bs : List β} {f : β → Fin a → K} (h : t.HV bs f) :
    ∃ r, t.reverse = .ok r ∧ r.HV bs.reverse f := Tens.IsB.reverse (Tens.hV_iff.1 h)

theorem Tens.IsMt.tl {t : Tens K} {bs : List β} {f : β → Matrix (Fin a) (Fin b) K} (h : t.HM bs f) :
    ∃ r, t.tail = .ok r ∧ r.HM bs.tail f := Tens.IsB.tail (Tens.hM_iff.1 h)

theorem Tens.IsVt.tl {t : Tens K} {bs : List β} {f : β → Fin a → K} (h : t.HV bs f) :
    ∃ r, t.tail = .ok r ∧ r.HV bs.tail f := Tens.IsB.tail (Tens.hV_iff.1 h)

theorem Tens.IsMt.slices {t : Tens K} {bs : List β} {f : β → Matrix (Fin a) (Fin b) K} (h : t.HM bs f) :
    ∃ ts, t.slices = .ok ts ∧ List.Forall₂ (fun s x => s.HM [x] f) ts bs := Tens.IsB.slices (Tens.hM_iff.1 h)

theorem Tens.IsVt.slices {t : Tens K} {bs : List β} {f : β → Fin a → K} (h : t.HV bs f) :
    ∃ ts, t.slices = .ok ts ∧ List.Forall₂ (fun s x => s.HV [x] f) ts bs := Tens.IsB.slices (Tens.hV_iff.1 h)

theorem joinAll_hM {ts : List (Tens K)} {bs : List β} {f : β → Matrix (Fin a) (Fin b) K} (h : List.Forall₂ (fun s x => s.HM [x] f) ts bs)
    (hne : bs ≠ []) : ∃ t, Tens.joinAll ts = .ok t ∧ t.HM bs f :=
  Tens.IsB.joinAll (s := [a, b]) (D := fun v x => ∀ (i : Fin a) (j : Fin b), v [i.val, j.val] = f x i j) h hne

theorem joinAll_hV {ts : List (Tens K)} {bs : List β} {f : β → Fin a → K} (h : List.Forall₂ (fun s x => s.HV [x] f) ts bs)
    (hne : bs ≠ []) : ∃ t, Tens.joinAll ts = .ok t ∧ t.HV bs f :=
  Tens.IsB.joinAll (s := [a]) (D := fun v x => ∀ i : Fin a, v [i.val] = f x i) h hne

/-- One more axis in front. -/
theorem Tens.IsM.expand {t : Tens K} {A : Matrix (Fin a) (Fin b) K} (h : t.IsM A) (x : β) (f : β → Matrix (Fin a) (Fin b) K) (hx : f x = A) :
    ∃ r, t.expandDims 0 = .ok r ∧ r.HM [x] f := by
  obtain ⟨r, e, hr⟩ := h.batch
  refine ⟨r, e, hr.1, fun k hk i j => ?_⟩
  have hk0 : k = 0 := by simp at hk; omega
  subst hk0
  subst hx
  exact hr.2 0 Nat.one_pos i j

theorem Tens.IsV.expand {t : Tens K} {A : Fin a → K} (h : t.IsV A) (x : β) (f : β → Fin a → K) (hx : f x = A) :
    ∃ r, t.expandDims 0 = .ok r ∧ r.HV [x] f := by
  obtain ⟨r, e, hr⟩ := h.batch
  refine ⟨r, e, hr.1, fun k hk i => ?_⟩
  have hk0 : k = 0 := by simp at hk; omega
  subst hk0
  subst hx
  exact hr.2 0 Nat.one_pos i

theorem Tens.IsMt.first {t : Tens K} {x : β} {bs : List β} {f : β → Matrix (Fin a) (Fin b) K} (h : t.HM (x :: bs) f) :
    ∃ r, t.select 0 0 = .ok r ∧ r.IsM (f x) := by
  obtain ⟨s, v⟩ := t
  obtain ⟨h1, h2⟩ := h
  dsimp only at h1 h2
  subst h1
  refine ⟨⟨[a, b], fun i => v (i.insertIdx 0 0)⟩, ?_, rfl, fun i j => h2 0 (Nat.succ_pos _) i j⟩
  rfl

theorem Tens.IsVt.first {t : Tens K} {x : β} {bs : List β} {f : β → Fin a → K} (h : t.HV (x :: bs) f) :
    ∃ r, t.select 0 0 = .ok r ∧ r.IsV (f x) := by
  obtain ⟨s, v⟩ := t
  obtain ⟨h1, h2⟩ := h
  dsimp only at h1 h2
  subst h1
  refine ⟨⟨[a], fun i => v (i.insertIdx 0 0)⟩, ?_, rfl, fun i => h2 0 (Nat.succ_pos _) i⟩
  rfl

/-- The last item. -/
theorem Tens.IsVt.end {t : Tens K} {bs : List β} {x : β} {f : β → Fin a → K} (h : t.HV bs f) (hx : bs.getLast? = some x) :
    ∃ r, t.last = .ok r ∧ r.IsV (f x) := by
  obtain ⟨s, v⟩ := t
  obtain ⟨h1, h2⟩ := h
  dsimp only at h1 h2
  obtain ⟨l, rfl⟩ : ∃ l, bs = l ++ [x] := ⟨bs.dropLast, (List.dropLast_append_getLast? x hx).symm⟩
  rw [List.length_append, List.length_singleton] at h1
  subst h1
  refine ⟨⟨[a], fun i => v (i.insertIdx 0 l.length)⟩, ?_, rfl, fun i => ?_⟩
  · exact if_pos (Nat.lt_succ_self l.length)
  simpa using h2 l.length (by simp) i

theorem forall₂_zip_of {α γ : Type} {R : α → β → Prop} {S : γ → β → Prop} {l : List α} {l' : List γ} {bs : List β}
    (h : List.Forall₂ R l bs) (h' : List.Forall₂ S l' bs) : List.Forall₂ (fun x b => R x.1 b ∧ S x.2 b) (l.zip l') bs := by
  induction h generalizing l' with
  | nil => cases h'; exact .nil
  | cons h1 _ ih => cases h' with | cons h2 h3 => exact .cons ⟨h1, h2⟩ (ih h3)

end Verif
