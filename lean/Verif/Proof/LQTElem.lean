import Verif.Model.LQT
import Verif.Proof.Linalg

/-!
The meaning of the elements `(A, b, C, eta, J)`: affine relations between (state, costate) at both ends of an
interval.  Combination is composition of relations, and a relation determines the element.
-/

namespace Verif

open Matrix

variable {n m : ℕ} {K : Type} [Field K]

/-- State and costate before (`x`, `l`) and after (`x'`, `l'`) the interval of an element. -/
def Elem.Rel (e : Elem n K) (x l x' l' : Fin n → K) : Prop :=
  x' = e.A *ᵥ x + e.b - e.C *ᵥ l' ∧ l = e.J *ᵥ x - e.eta + e.Aᵀ *ᵥ l'

/-- Symmetric `C` and `J`. -/
def Elem.Sym (e : Elem n K) : Prop := e.Cᵀ = e.C ∧ e.Jᵀ = e.J

theorem mat_ext_mulVec {ι κ : Type} [Fintype κ] [DecidableEq κ] {A B : Matrix ι κ K} (h : ∀ x, A *ᵥ x = B *ᵥ x) : A = B := by
  ext i j
  have := congrFun (h (Pi.single j 1)) i
  simpa using this

theorem Elem.ext_of_rel {e e' : Elem n K} (h : ∀ x l x' l', e.Rel x l x' l' → e'.Rel x l x' l') : e = e' := by
  have h1 : ∀ x l', e.A *ᵥ x + e.b - e.C *ᵥ l' = e'.A *ᵥ x + e'.b - e'.C *ᵥ l' ∧
      e.J *ᵥ x - e.eta + e.Aᵀ *ᵥ l' = e'.J *ᵥ x - e'.eta + e'.Aᵀ *ᵥ l' :=
    fun x l' => h x _ _ l' ⟨rfl, rfl⟩
  have hb : e.b = e'.b := by simpa using (h1 0 0).1
  have heta : e.eta = e'.eta := by simpa using (h1 0 0).2
  have hA : e.A = e'.A := mat_ext_mulVec fun x => by simpa [hb] using (h1 x 0).1
  have hC : e.C = e'.C := mat_ext_mulVec fun x => by simpa [hb] using (h1 0 x).1
  have hJ : e.J = e'.J := mat_ext_mulVec fun x => by simpa [heta] using (h1 x 0).2
  exact Elem.ext hA hb hC heta hJ

/-- The meeting point of two elements. -/
theorem mid_iff {C J P Q : Matrix (Fin n) (Fin n) K} (hP : (1 + C * J) * P = 1) (hP' : P * (1 + C * J) = 1)
    (hQ : (1 + J * C) * Q = 1) (hQ' : Q * (1 + J * C) = 1) (g h x l : Fin n → K) :
    (x = g - C *ᵥ l ∧ l = J *ᵥ x + h) ↔ (x = P *ᵥ (g - C *ᵥ h) ∧ l = Q *ᵥ (J *ᵥ g + h)) := by
  have hPC : P * C = C * Q := by
    have : P * ((1 + C * J) * C) * Q = P * (C * (1 + J * C)) * Q := by
      congr 2; rw [Matrix.add_mul, Matrix.mul_add, Matrix.one_mul, Matrix.mul_one, Matrix.mul_assoc]
    rw [← Matrix.mul_assoc, hP', Matrix.one_mul, Matrix.mul_assoc, Matrix.mul_assoc, hQ, Matrix.mul_one] at this
    exact this.symm
  have hQJ : Q * J = J * P := by
    have : Q * ((1 + J * C) * J) * P = Q * (J * (1 + C * J)) * P := by
      congr 2; rw [Matrix.add_mul, Matrix.mul_add, Matrix.one_mul, Matrix.mul_one, Matrix.mul_assoc]
    rw [← Matrix.mul_assoc, hQ', Matrix.one_mul, Matrix.mul_assoc, Matrix.mul_assoc, hP, Matrix.mul_one] at this
    exact this.symm
  have hPe : ∀ y, P *ᵥ y = y - C *ᵥ (Q *ᵥ (J *ᵥ y)) := by
    intro y
    have h1 : P *ᵥ y + P *ᵥ (C *ᵥ (J *ᵥ y)) = y := by
      rw [← mulVec_add, mulVec_mulVec, ← one_mulVec y, mulVec_mulVec, ← add_mulVec, mulVec_mulVec, Matrix.mul_one, hP']
    have h2 : P *ᵥ (C *ᵥ (J *ᵥ y)) = C *ᵥ (Q *ᵥ (J *ᵥ y)) := by rw [mulVec_mulVec, hPC, ← mulVec_mulVec]
    rw [h2] at h1
    exact eq_sub_of_add_eq h1
  have hQe : ∀ y, Q *ᵥ y = y - J *ᵥ (P *ᵥ (C *ᵥ y)) := by
    intro y
    have h1 : Q *ᵥ y + Q *ᵥ (J *ᵥ (C *ᵥ y)) = y := by
      rw [← mulVec_add, mulVec_mulVec, ← one_mulVec y, mulVec_mulVec, ← add_mulVec, mulVec_mulVec, Matrix.mul_one, hQ']
    have h2 : Q *ᵥ (J *ᵥ (C *ᵥ y)) = J *ᵥ (P *ᵥ (C *ᵥ y)) := by rw [mulVec_mulVec, hQJ, ← mulVec_mulVec]
    rw [h2] at h1
    exact eq_sub_of_add_eq h1
  have hPCv : ∀ y, P *ᵥ (C *ᵥ y) = C *ᵥ (Q *ᵥ y) := fun y => by rw [mulVec_mulVec, hPC, ← mulVec_mulVec]
  have hQJv : ∀ y, Q *ᵥ (J *ᵥ y) = J *ᵥ (P *ᵥ y) := fun y => by rw [mulVec_mulVec, hQJ, ← mulVec_mulVec]
  constructor
  · rintro ⟨hx, hl⟩
    constructor
    · have h1 : (1 + C * J) *ᵥ x = g - C *ᵥ h := by
        rw [add_mulVec, one_mulVec, ← mulVec_mulVec]
        have : J *ᵥ x = l - h := by rw [hl]; abel
        rw [this, mulVec_sub, hx]
        abel
      rw [← h1, mulVec_mulVec, hP', one_mulVec]
    · have h1 : (1 + J * C) *ᵥ l = J *ᵥ g + h := by
        rw [add_mulVec, one_mulVec, ← mulVec_mulVec]
        have : C *ᵥ l = g - x := by rw [hx]; abel
        rw [this, mulVec_sub]
        nth_rewrite 1 [hl]
        abel
      rw [← h1, mulVec_mulVec, hQ', one_mulVec]
  · rintro ⟨rfl, rfl⟩
    constructor
    · rw [mulVec_sub, hPCv, hPe g, mulVec_add, mulVec_add]
      abel
    · rw [mulVec_sub, mulVec_sub, mulVec_add, hQe h, hQJv g]
      abel

theorem combine_ok [DecidableEq K] {e1 e2 e : Elem n K} (h : combineABCEJ e1 e2 = .ok e) :
    ∃ P Q : Matrix (Fin n) (Fin n) K, ((1 + e1.C * e2.J) * P = 1 ∧ P * (1 + e1.C * e2.J) = 1) ∧
      ((1 + e2.J * e1.C) * Q = 1 ∧ Q * (1 + e2.J * e1.C) = 1) ∧
      e = ⟨e2.A * (P * e1.A), e2.A *ᵥ (P *ᵥ (e1.b + e1.C *ᵥ e2.eta)) + e2.b,
        e2.A * (P * (e1.C * e2.Aᵀ)) + e2.C, e1.Aᵀ *ᵥ (Q *ᵥ (e2.eta - e2.J *ᵥ e1.b)) + e1.eta,
        e1.Aᵀ * (Q * (e2.J * e1.A)) + e1.J⟩ := by
  unfold combineABCEJ at h
  rw [bind_ok] at h
  obtain ⟨P, hP, h⟩ := h
  rw [bind_ok] at h
  obtain ⟨Q, hQ, h⟩ := h
  refine ⟨P, Q, luFactor_ok'.1 hP, luFactor_ok'.1 hQ, ?_⟩
  simp only [pure, Except.pure, Except.ok.injEq] at h
  exact h.symm

theorem combine_defined [DecidableEq K] {e1 e2 : Elem n K} (h : (1 + e1.C * e2.J).det ≠ 0) :
    ∃ e, combineABCEJ e1 e2 = .ok e := by
  have h' : (1 + e2.J * e1.C).det ≠ 0 := by rwa [det_one_add_mul_comm]
  unfold combineABCEJ
  rw [luFactor_ok.2 ⟨h, rfl⟩, luFactor_ok.2 ⟨h', rfl⟩]
  exact ⟨_, rfl⟩

/-- Combination is composition of relations. -/
theorem combine_rel [DecidableEq K] {e1 e2 e : Elem n K} (h : combineABCEJ e1 e2 = .ok e) (h1 : e1.Sym) (h2 : e2.Sym) :
    e.Sym ∧ ∀ x l x'' l'', e.Rel x l x'' l'' ↔ ∃ x' l', e1.Rel x l x' l' ∧ e2.Rel x' l' x'' l'' := by
  obtain ⟨P, Q, ⟨hP, hP'⟩, ⟨hQ, hQ'⟩, rfl⟩ := combine_ok h
  have hPt : Pᵀ = Q := by
    have : (1 + e2.J * e1.C) * Pᵀ = 1 := by
      have := congrArg transpose hP'
      rwa [transpose_mul, transpose_add, transpose_one, transpose_mul, h1.1, h2.2] at this
    calc Pᵀ = Q * ((1 + e2.J * e1.C) * Pᵀ) := by rw [← Matrix.mul_assoc, hQ', Matrix.one_mul]
      _ = Q := by rw [this, Matrix.mul_one]
  have hQt : Qᵀ = P := by rw [← hPt, transpose_transpose]
  have hPC : P * e1.C = e1.C * Q := by
    have : P * ((1 + e1.C * e2.J) * e1.C) * Q = P * (e1.C * (1 + e2.J * e1.C)) * Q := by
      congr 2; rw [Matrix.add_mul, Matrix.mul_add, Matrix.one_mul, Matrix.mul_one, Matrix.mul_assoc]
    rw [← Matrix.mul_assoc, hP', Matrix.one_mul, Matrix.mul_assoc, Matrix.mul_assoc, hQ, Matrix.mul_one] at this
    exact this.symm
  have hQJ : Q * e2.J = e2.J * P := by
    have : Q * ((1 + e2.J * e1.C) * e2.J) * P = Q * (e2.J * (1 + e1.C * e2.J)) * P := by
      congr 2; rw [Matrix.add_mul, Matrix.mul_add, Matrix.one_mul, Matrix.mul_one, Matrix.mul_assoc]
    rw [← Matrix.mul_assoc, hQ', Matrix.one_mul, Matrix.mul_assoc, Matrix.mul_assoc, hP, Matrix.mul_one] at this
    exact this.symm
  refine ⟨⟨?_, ?_⟩, ?_⟩
  · simp only [transpose_add, transpose_mul, transpose_transpose, h1.1, h2.1, hPt]
    rw [Matrix.mul_assoc e2.A, ← hPC, Matrix.mul_assoc, Matrix.mul_assoc]
  · simp only [transpose_add, transpose_mul, transpose_transpose, h1.2, h2.2, hQt]
    rw [Matrix.mul_assoc e1.Aᵀ, ← hQJ, Matrix.mul_assoc, Matrix.mul_assoc]
  · intro x l x'' l''
    have key := fun x' l' => mid_iff hP hP' hQ hQ' (e1.A *ᵥ x + e1.b) (e2.Aᵀ *ᵥ l'' - e2.eta) x' l'
    unfold Elem.Rel
    constructor
    · rintro ⟨hx, hl⟩
      refine ⟨P *ᵥ (e1.A *ᵥ x + e1.b - e1.C *ᵥ (e2.Aᵀ *ᵥ l'' - e2.eta)),
        Q *ᵥ (e2.J *ᵥ (e1.A *ᵥ x + e1.b) + (e2.Aᵀ *ᵥ l'' - e2.eta)), ⟨?_, ?_⟩, ?_, ?_⟩
      · exact ((key _ _).2 ⟨rfl, rfl⟩).1
      · rw [hl]
        simp only [transpose_mul, hPt, mulVec_add, mulVec_sub, add_mulVec, ← mulVec_mulVec]
        abel
      · rw [hx]
        simp only [mulVec_add, mulVec_sub, add_mulVec, ← mulVec_mulVec]
        abel
      · rw [((key _ _).2 ⟨rfl, rfl⟩).2]
        rw [← ((key _ _).2 ⟨rfl, rfl⟩).2]
        have := ((key _ _).2 ⟨rfl, rfl⟩).2
        rw [this]
        abel
    · rintro ⟨x', l', ⟨ha, hb⟩, hc, hd⟩
      have := (key x' l').1 ⟨ha, by rw [hd]; abel⟩
      constructor
      · rw [hc, this.1]
        simp only [mulVec_add, mulVec_sub, add_mulVec, ← mulVec_mulVec]
        abel
      · rw [hb, this.2]
        simp only [transpose_mul, hPt, mulVec_add, mulVec_sub, add_mulVec, ← mulVec_mulVec]
        abel

/-- Relation of a list of elements. -/
def listRel : List (Elem n K) → (Fin n → K) → (Fin n → K) → (Fin n → K) → (Fin n → K) → Prop
  | [], x, l, x', l' => x = x' ∧ l = l'
  | e :: es, x, l, x', l' => ∃ y k, e.Rel x l y k ∧ listRel es y k x' l'

theorem listRel_append (a b : List (Elem n K)) (x l x' l' : Fin n → K) :
    listRel (a ++ b) x l x' l' ↔ ∃ y k, listRel a x l y k ∧ listRel b y k x' l' := by
  induction a generalizing x l with
  | nil => simp [listRel]
  | cons e a ih =>
    simp only [List.cons_append, listRel, ih]
    constructor
    · rintro ⟨y, k, h, z, j, h1, h2⟩; exact ⟨z, j, ⟨y, k, h, h1⟩, h2⟩
    · rintro ⟨z, j, ⟨y, k, h, h1⟩, h2⟩; exact ⟨y, k, h, z, j, h1, h2⟩

/-- Every completed bracketing has the relation of the list. -/
theorem paren_rel [DecidableEq K] {es : List (Elem n K)} {v : Elem n K} (h : Paren combineABCEJ es v)
    (hs : ∀ e ∈ es, e.Sym) :
    v.Sym ∧ ∀ x l x' l', v.Rel x l x' l' ↔ listRel es x l x' l' := by
  induction h with
  | single e =>
    refine ⟨hs e (by simp), fun x l x' l' => ?_⟩
    simp only [listRel]
    constructor
    · intro h; exact ⟨x', l', h, rfl, rfl⟩
    · rintro ⟨y, k, h, rfl, rfl⟩; exact h
  | node ha hb hop iha ihb =>
    obtain ⟨s1, r1⟩ := iha fun e he => hs e (by simp [he])
    obtain ⟨s2, r2⟩ := ihb fun e he => hs e (by simp [he])
    obtain ⟨s3, r3⟩ := combine_rel hop s1 s2
    refine ⟨s3, fun x l x' l' => ?_⟩
    rw [r3, listRel_append]
    simp only [r1, r2]

/-- Any two completed bracketings agree. -/
theorem paren_unique [DecidableEq K] {es : List (Elem n K)} {v w : Elem n K} (hv : Paren combineABCEJ es v)
    (hw : Paren combineABCEJ es w) (hs : ∀ e ∈ es, e.Sym) : v = w := by
  obtain ⟨_, h1⟩ := paren_rel hv hs
  obtain ⟨_, h2⟩ := paren_rel hw hs
  exact Elem.ext_of_rel fun x l x' l' h => (h2 _ _ _ _).2 ((h1 _ _ _ _).1 h)

section Ordered
variable [LinearOrder K] [IsStrictOrderedRing K]

/-- Positive semidefinite `C` and `J`. -/
def Elem.PSD (e : Elem n K) : Prop := IsPSD e.C ∧ IsPSD e.J

omit [IsStrictOrderedRing K] in
theorem Elem.PSD.sym {e : Elem n K} (h : e.PSD) : e.Sym := ⟨h.1.1, h.2.1⟩

/-- `(I + C J)⁻¹ C` is a semidefinite form. -/
theorem quad_inv_nonneg {C J P : Matrix (Fin n) (Fin n) K} (hC : IsPSD C) (hJ : IsPSD J)
    (hP : (1 + C * J) * P = 1) (hP' : P * (1 + C * J) = 1) (z : Fin n → K) : 0 ≤ z ⬝ᵥ (P * C) *ᵥ z := by
  have hPt : (1 + J * C) * Pᵀ = 1 := by
    have := congrArg transpose hP'
    rwa [transpose_mul, transpose_add, transpose_one, transpose_mul, hC.1, hJ.1] at this
  set w := Pᵀ *ᵥ z with hw
  have hz : z = w + J *ᵥ (C *ᵥ w) := by
    have : (1 + J * C) *ᵥ w = z := by rw [hw, mulVec_mulVec, hPt, one_mulVec]
    rw [← this, add_mulVec, one_mulVec, ← mulVec_mulVec]
  have h1 : z ⬝ᵥ (P * C) *ᵥ z = w ⬝ᵥ C *ᵥ z := by
    rw [← mulVec_mulVec, dot_symm, ← hw, dotProduct_comm]
  have h2 : w ⬝ᵥ C *ᵥ z = w ⬝ᵥ C *ᵥ w + (C *ᵥ w) ⬝ᵥ J *ᵥ (C *ᵥ w) := by
    conv_lhs => rw [hz, mulVec_add, dotProduct_add, dot_symm C w (J *ᵥ C *ᵥ w), hC.1]
    rw [dotProduct_comm (J *ᵥ C *ᵥ w)]
  rw [h1, h2]
  have := hC.2 w
  have := hJ.2 (C *ᵥ w)
  linarith

theorem combine_psd {e1 e2 e : Elem n K} (h : combineABCEJ e1 e2 = .ok e) (h1 : e1.PSD) (h2 : e2.PSD) : e.PSD := by
  have hs := (combine_rel h h1.sym h2.sym).1
  obtain ⟨P, Q, ⟨hP, hP'⟩, ⟨hQ, hQ'⟩, rfl⟩ := combine_ok h
  refine ⟨⟨hs.1, fun z => ?_⟩, hs.2, fun z => ?_⟩
  · simp only [add_mulVec, dotProduct_add]
    refine add_nonneg ?_ (h2.1.2 z)
    have := quad_inv_nonneg h1.1 h2.2 hP hP' (e2.Aᵀ *ᵥ z)
    rw [← mulVec_mulVec, dot_symm, dotProduct_comm]
    rw [← Matrix.mul_assoc, ← mulVec_mulVec, dotProduct_comm]
    rwa [dotProduct_comm] at this
  · simp only [add_mulVec, dotProduct_add]
    refine add_nonneg ?_ (h1.2.2 z)
    have := quad_inv_nonneg h2.2 h1.1 hQ hQ' (e1.A *ᵥ z)
    rw [← mulVec_mulVec, dot_symm, transpose_transpose, dotProduct_comm]
    rwa [← Matrix.mul_assoc, ← mulVec_mulVec]

/-- The combination is defined and closed on semidefinite elements. -/
theorem psd_closed : Closed (Elem.PSD (n := n) (K := K)) combineABCEJ := by
  intro e1 e2 h1 h2
  obtain ⟨e, he⟩ := combine_defined (det_one_add_ne_zero h1.1 h2.2)
  exact ⟨e, he, combine_psd he h1 h2⟩

end Ordered

end Verif
