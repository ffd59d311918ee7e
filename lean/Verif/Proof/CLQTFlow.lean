import Verif.Proof.MatDeriv
import Verif.Proof.CLQTPack
import Verif.Proof.LQTElem
import Mathlib.Tactic.NoncommRing

/-! The differential equations of the continuous-time tracker: elements, value functions and trajectories. -/

namespace Verif

open Matrix

variable {n m : ℕ} {t : ℝ}

theorem md_elem {e : ℝ → Elem n ℝ} {d : Elem n ℝ}
    (h : ∀ i j, HasDerivAt (fun s => packABCEJ (e s) i j) (packABCEJ d i j) t) :
    MD (fun s => (e s).A) d.A t ∧ VD (fun s => (e s).b) d.b t ∧ MD (fun s => (e s).C) d.C t ∧ VD (fun s => (e s).eta) d.eta t ∧
      MD (fun s => (e s).J) d.J t := by
  have key : MD (fun s => (unpackABCEJ (packABCEJ (e s))).A) (unpackABCEJ (packABCEJ d)).A t ∧
      VD (fun s => (unpackABCEJ (packABCEJ (e s))).b) (unpackABCEJ (packABCEJ d)).b t ∧
      MD (fun s => (unpackABCEJ (packABCEJ (e s))).C) (unpackABCEJ (packABCEJ d)).C t ∧
      VD (fun s => (unpackABCEJ (packABCEJ (e s))).eta) (unpackABCEJ (packABCEJ d)).eta t ∧
      MD (fun s => (unpackABCEJ (packABCEJ (e s))).J) (unpackABCEJ (packABCEJ d)).J t :=
    ⟨fun i j => h i _, fun i => h i _, fun i j => h i _, fun i => h i _, fun i j => h i _⟩
  simpa only [unpack_packABCEJ] using key

theorem md_sv {S : ℝ → Matrix (Fin n) (Fin n) ℝ} {v : ℝ → Fin n → ℝ} {S' : Matrix (Fin n) (Fin n) ℝ} {v' : Fin n → ℝ} :
    (∀ i j, HasDerivAt (fun s => packSv (S s) (v s) i j) (packSv S' v' i j) t) ↔ MD S S' t ∧ VD v v' t := by
  constructor
  · intro h
    have key : MD (fun s => (unpackSv (packSv (S s) (v s))).1) (unpackSv (packSv S' v')).1 t ∧
        VD (fun s => (unpackSv (packSv (S s) (v s))).2) (unpackSv (packSv S' v')).2 t :=
      ⟨fun i j => h i _, fun i => h i _⟩
    simpa only [unpack_packSv] using key
  · rintro ⟨hS, hv⟩ i j
    by_cases h1 : j.1 < n
    · simp only [packSv, of_apply, h1, dite_true]
      exact hS i ⟨j.1, h1⟩
    · have h2 : j.1 = n := by omega
      have h3 : ¬ n < n := lt_irrefl n
      simp only [packSv, of_apply, h2, h3, dite_false, if_true]
      exact hv i

theorem md_abc {A : ℝ → Matrix (Fin n) (Fin n) ℝ} {b : ℝ → Fin n → ℝ} {C : ℝ → Matrix (Fin n) (Fin n) ℝ}
    {A' : Matrix (Fin n) (Fin n) ℝ} {b' : Fin n → ℝ} {C' : Matrix (Fin n) (Fin n) ℝ}
    (h : ∀ i j, HasDerivAt (fun s => packABC (A s) (b s) (C s) i j) (packABC A' b' C' i j) t) :
    MD A A' t ∧ VD b b' t ∧ MD C C' t := by
  have key : MD (fun s => (unpackABC (packABC (A s) (b s) (C s))).1) (unpackABC (packABC A' b' C')).1 t ∧
      VD (fun s => (unpackABC (packABC (A s) (b s) (C s))).2.1) (unpackABC (packABC A' b' C')).2.1 t ∧
      MD (fun s => (unpackABC (packABC (A s) (b s) (C s))).2.2) (unpackABC (packABC A' b' C')).2.2 t :=
    ⟨fun i j => h i _, fun i => h i _, fun i j => h i _⟩
  simpa only [unpack_packABC] using key

/-- The solution `G = L U⁻¹ Lᵀ` used by the equations is symmetric. -/
theorem lult_symm {U : Matrix (Fin m) (Fin m) ℝ} {L : Matrix (Fin n) (Fin m) ℝ} {Y : Matrix (Fin m) (Fin n) ℝ} (hU : Uᵀ = U)
    (h : solvePos U Lᵀ = .ok Y) : (L * Y)ᵀ = L * Y := by
  obtain ⟨-, h⟩ := (solvePos_ok hU).1 h
  have hL : L = Yᵀ * U := by
    rw [← transpose_transpose L, ← h, transpose_mul, hU]
  rw [transpose_mul, ← h, hL, ← Matrix.mul_assoc]

/-- Combination with a value function. -/
theorem combine_value {e : Elem n ℝ} {S : Matrix (Fin n) (Fin n) ℝ} {v : Fin n → ℝ} (h : (1 + S * e.C).det ≠ 0) :
    combineABCEJ e ⟨0, 0, 0, v, S⟩ = .ok ⟨0, 0, 0, e.Aᵀ *ᵥ ((1 + S * e.C)⁻¹ *ᵥ (v - S *ᵥ e.b)) + e.eta,
      e.Aᵀ * ((1 + S * e.C)⁻¹ * (S * e.A)) + e.J⟩ := by
  obtain ⟨r, hr⟩ := combine_defined (e1 := e) (e2 := ⟨0, 0, 0, v, S⟩) (by rwa [det_one_add_mul_comm])
  obtain ⟨P, Q, -, ⟨hQ, -⟩, rfl⟩ := combine_ok hr
  have : Q = (1 + S * e.C)⁻¹ := (Matrix.inv_eq_right_inv hQ).symm
  rw [hr, this]
  simp

/-- The backward element equation turns any terminal value function into a solution of the Riccati equation. -/
theorem flow_bw {P : CLQT n m ℝ} (hU : (P.U t)ᵀ = P.U t) {e : ℝ → Elem n ℝ} (hJ : (e t).Jᵀ = (e t).J)
    {dx : Matrix (Fin n) (Fin (3 * n + 2)) ℝ} (hdx : P.bwpassBwOdeF (packABCEJ (e t)) t = .ok dx)
    (hder : ∀ i j, HasDerivAt (fun s => packABCEJ (e s) i j) (dx i j) t) {S : Matrix (Fin n) (Fin n) ℝ} {v : Fin n → ℝ}
    (hdet : (1 + S * (e t).C).det ≠ 0) :
    ∃ dy, P.riccatiOdeF (packSv ((e t).Aᵀ * ((1 + S * (e t).C)⁻¹ * (S * (e t).A)) + (e t).J)
        ((e t).Aᵀ *ᵥ ((1 + S * (e t).C)⁻¹ *ᵥ (v - S *ᵥ (e t).b)) + (e t).eta)) t = .ok dy ∧
      ∀ i j, HasDerivAt (fun s => packSv ((e s).Aᵀ * ((1 + S * (e s).C)⁻¹ * (S * (e s).A)) + (e s).J)
        ((e s).Aᵀ *ᵥ ((1 + S * (e s).C)⁻¹ *ᵥ (v - S *ᵥ (e s).b)) + (e s).eta) i j) (dy i j) t := by
  unfold CLQT.bwpassBwOdeF at hdx
  simp only [bind_ok] at hdx
  obtain ⟨Y, hY, hdx⟩ := hdx
  have hG := lult_symm hU hY
  rw [unpack_packABCEJ] at hdx
  simp only [pure, Except.pure, Except.ok.injEq] at hdx
  subst hdx
  obtain ⟨hA, hb, hC, heta, hJ'⟩ := md_elem hder
  unfold CLQT.riccatiOdeF
  simp only [unpack_packSv, hY, bind, Except.bind, pure, Except.pure]
  refine ⟨_, rfl, md_sv.2 ?_⟩
  have hQ := ((MD.const (t := t) (1 : Matrix (Fin n) (Fin n) ℝ)).add ((MD.const S).mul hC)).inv hdet
  have hSt := (hA.transpose.mul (hQ.mul ((MD.const S).mul hA))).add hJ'
  have hvt := (hA.transpose.mulVec (hQ.mulVec ((VD.const v).sub ((MD.const S).mulVec hb)))).add heta
  dsimp only at hSt hvt
  generalize P.L t * Y = G at *
  generalize (1 + S * (e t).C)⁻¹ = Q at *
  generalize (e t).A = A at *
  generalize (e t).J = J at *
  generalize (e t).b = b at *
  generalize (e t).eta = η at *
  constructor
  · refine hSt.congr ?_ fun _ => rfl
    simp only [transpose_sub, transpose_mul, hG, hJ]
    generalize (P.F t)ᵀ = F'
    generalize P.F t = F
    generalize Aᵀ = A'
    have hM : (-(P.H t)ᵀ * P.X t * P.H t) = -((P.H t)ᵀ * P.X t * P.H t) := by simp
    rw [hM]
    generalize (P.H t)ᵀ * P.X t * P.H t = M
    noncomm_ring
  · have : ∀ {v : ℝ → Fin n → ℝ} {d d' : Fin n → ℝ}, VD v d t → d = d' → VD v d' t := fun h e => e ▸ h
    refine this hvt ?_
    simp only [transpose_sub, transpose_mul, hG, hJ]
    generalize (P.F t)ᵀ = F'
    generalize P.F t = F
    generalize Aᵀ = A'
    generalize (-((P.H t)ᵀ * P.X t) *ᵥ P.r t) = q
    generalize P.c t = c
    simp only [Matrix.sub_mulVec, Matrix.add_mulVec, Matrix.mulVec_sub, Matrix.mulVec_add, ← Matrix.mulVec_mulVec,
      Matrix.neg_mulVec, Matrix.mulVec_neg, Matrix.zero_mulVec, Matrix.mulVec_zero]
    abel

section Alg
variable {R : Type*} [Ring R]

theorem ricc_alg {Q S C F F' M G : R} (h1 : Q * S * C = 1 - Q) (h2 : S * C * Q = 1 - Q) :
    -(Q * ((-F' * S - S * F + S * G * S - M) * C + S * (F * C - C * M * C + C * F' + G)) * Q) * S +
      Q * (-F' * S - S * F + S * G * S - M) = -F' * (Q * S) - Q * S * F - M + Q * S * C * M + M * C * (Q * S) := by
  have a : Q * S * C + Q - 1 = 0 := by rw [h1]; abel
  have b : S * C * Q + Q - 1 = 0 := by rw [h2]; abel
  have key : (-(Q * ((-F' * S - S * F + S * G * S - M) * C + S * (F * C - C * M * C + C * F' + G)) * Q) * S +
      Q * (-F' * S - S * F + S * G * S - M)) - (-F' * (Q * S) - Q * S * F - M + Q * S * C * M + M * C * (Q * S)) =
      -((Q * S * C + Q - 1) * F' * Q * S) + Q * F' * (S * C * Q + Q - 1) * S - Q * S * G * (S * C * Q + Q - 1) * S +
        (Q * S * C + Q - 1) * M * C * Q * S - (Q * S * C + Q - 1) * M := by
    noncomm_ring
  rw [a, b] at key
  rw [← sub_eq_zero, key]
  simp

theorem ricc_alg' {Q S C S' C' : R} (h1 : Q * S * C = 1 - Q) :
    -(Q * (S' * C + S * C') * Q) = -((-(Q * (S' * C + S * C') * Q) * S + Q * S') * C) - Q * S * C' := by
  have a : Q * S * C + Q - 1 = 0 := by rw [h1]; abel
  have key : -(Q * (S' * C + S * C') * Q) - (-((-(Q * (S' * C + S * C') * Q) * S + Q * S') * C) - Q * S * C') =
      -(Q * (S' * C + S * C') * (Q * S * C + Q - 1)) := by
    noncomm_ring
  rw [a, mul_zero, neg_zero] at key
  exact sub_eq_zero.1 key

end Alg

theorem VD.of_eq {v : ℝ → Fin n → ℝ} {d d' : Fin n → ℝ} (h : VD v d t) (e : d = d') : VD v d' t := e ▸ h

theorem MD.of_eq {k : ℕ} {M : ℝ → Matrix (Fin n) (Fin k) ℝ} {D D' : Matrix (Fin n) (Fin k) ℝ} (h : MD M D t) (e : D = D') : MD M D' t := e ▸ h

theorem inv_rel1 {S C : Matrix (Fin n) (Fin n) ℝ} (hdet : (1 + S * C).det ≠ 0) :
    (1 + S * C)⁻¹ * S * C = 1 - (1 + S * C)⁻¹ := by
  have := Matrix.nonsing_inv_mul (1 + S * C) (isUnit_iff_ne_zero.2 hdet)
  rw [Matrix.mul_add, Matrix.mul_one, ← Matrix.mul_assoc] at this
  exact eq_sub_of_add_eq' this

theorem inv_rel2 {S C : Matrix (Fin n) (Fin n) ℝ} (hdet : (1 + S * C).det ≠ 0) :
    S * C * (1 + S * C)⁻¹ = 1 - (1 + S * C)⁻¹ := by
  have := Matrix.mul_nonsing_inv (1 + S * C) (isUnit_iff_ne_zero.2 hdet)
  rw [Matrix.add_mul, Matrix.one_mul] at this
  exact eq_sub_of_add_eq' this

theorem flow_fw_core {A C S J : ℝ → Matrix (Fin n) (Fin n) ℝ} {b η v : ℝ → Fin n → ℝ} {F M G : Matrix (Fin n) (Fin n) ℝ}
    {h c : Fin n → ℝ} (hM : Mᵀ = M) (hCs : (C t)ᵀ = C t) (hA : MD A (F * A t - C t * M * A t) t)
    (hb : VD b (F *ᵥ b t + C t *ᵥ h - (C t * M) *ᵥ b t + c) t)
    (hC : MD C (F * C t - C t * M * C t + C t * Fᵀ + G) t) (hη : VD η ((A t)ᵀ *ᵥ h - ((A t)ᵀ * M) *ᵥ b t) t)
    (hJ : MD J ((A t)ᵀ * M * A t) t) (hS : MD S (-Fᵀ * S t - S t * F + S t * G * S t - M) t)
    (hv : VD v (-h + S t *ᵥ c - Fᵀ *ᵥ v t + (S t * G) *ᵥ v t) t) (hdet : (1 + S t * C t).det ≠ 0) :
    MD (fun s => (A s)ᵀ * ((1 + S s * C s)⁻¹ * (S s * A s)) + J s) 0 t ∧
    VD (fun s => (A s)ᵀ *ᵥ ((1 + S s * C s)⁻¹ *ᵥ (v s - S s *ᵥ b s)) + η s) 0 t := by
  have q1 := inv_rel1 hdet
  have q2 := inv_rel2 hdet
  have hQ := ((MD.const (t := t) (1 : Matrix (Fin n) (Fin n) ℝ)).add (hS.mul hC)).inv hdet
  rw [zero_add] at hQ
  have hSt := (hA.transpose.mul (hQ.mul (hS.mul hA))).add hJ
  have hvt := (hA.transpose.mulVec (hQ.mulVec (hv.sub (hS.mulVec hb)))).add hη
  generalize (1 + S t * C t)⁻¹ = Q at *
  have r1 := ricc_alg (F := F) (F' := Fᵀ) (M := M) (G := G) q1 q2
  have r2 := ricc_alg' (S' := -Fᵀ * S t - S t * F + S t * G * S t - M) (C' := F * C t - C t * M * C t + C t * Fᵀ + G) q1
  have r3 : Q = 1 - Q * S t * C t := by rw [q1]; abel
  rw [r1] at r2
  generalize -(Q * ((-Fᵀ * S t - S t * F + S t * G * S t - M) * C t + S t * (F * C t - C t * M * C t + C t * Fᵀ + G)) * Q) = Q'
    at *
  generalize hS' : -Fᵀ * S t - S t * F + S t * G * S t - M = S' at *
  constructor
  · refine hSt.of_eq ?_
    simp only [transpose_sub, transpose_mul, hM, hCs]
    have : Q' * (S t * A t) + Q * (S' * A t + S t * (F * A t - C t * M * A t)) =
        (Q' * S t + Q * S') * A t + Q * S t * (F * A t - C t * M * A t) := by
      noncomm_ring
    rw [this, r1]
    noncomm_ring
  · refine hvt.of_eq ?_
    have : Q' *ᵥ (v t - S t *ᵥ b t) + Q *ᵥ (-h + S t *ᵥ c - Fᵀ *ᵥ v t + (S t * G) *ᵥ v t -
          (S' *ᵥ b t + S t *ᵥ (F *ᵥ b t + C t *ᵥ h - (C t * M) *ᵥ b t + c))) =
        Q' *ᵥ v t - (Q' * S t + Q * S') *ᵥ b t - Q *ᵥ h + (Q * S t) *ᵥ c - Q *ᵥ (Fᵀ *ᵥ v t) + (Q * S t) *ᵥ (G *ᵥ v t) -
          (Q * S t) *ᵥ (F *ᵥ b t + C t *ᵥ h - (C t * M) *ᵥ b t + c) := by
      simp only [Matrix.sub_mulVec, Matrix.add_mulVec, Matrix.mulVec_sub, Matrix.mulVec_add, ← Matrix.mulVec_mulVec,
        Matrix.mulVec_neg]
      abel
    rw [this, r1, r2]
    have e : Q *ᵥ (v t - S t *ᵥ b t) = v t - (Q * S t) *ᵥ (C t *ᵥ v t) - (Q * S t) *ᵥ b t := by
      rw [Matrix.mulVec_sub, Matrix.mulVec_mulVec, Matrix.mulVec_mulVec, q1, Matrix.sub_mulVec, Matrix.one_mulVec]
      abel
    have e' : ∀ w, Q *ᵥ w = w - (Q * S t) *ᵥ (C t *ᵥ w) := by
      intro w
      rw [Matrix.mulVec_mulVec, q1, Matrix.sub_mulVec, Matrix.one_mulVec]
      abel
    rw [e, e' h, e' (Fᵀ *ᵥ v t)]
    generalize Q * S t = R
    simp only [transpose_sub, transpose_mul, hM, hCs]
    simp only [Matrix.sub_mulVec, Matrix.add_mulVec, Matrix.mulVec_sub, Matrix.mulVec_add, ← Matrix.mulVec_mulVec,
      Matrix.neg_mulVec, Matrix.mulVec_neg]
    abel

/-- The forward element equation and the Riccati equation: the combination is constant. -/
theorem flow_fw {P : CLQT n m ℝ} {e : ℝ → Elem n ℝ} (hX : (P.X t)ᵀ = P.X t) (hC : (e t).Cᵀ = (e t).C)
    {dx : Matrix (Fin n) (Fin (3 * n + 2)) ℝ} (hdx : P.bwpassFwOdeF (packABCEJ (e t)) t = .ok dx)
    (hder : ∀ i j, HasDerivAt (fun s => packABCEJ (e s) i j) (dx i j) t) {S : ℝ → Matrix (Fin n) (Fin n) ℝ}
    {v : ℝ → Fin n → ℝ} {dy : Matrix (Fin n) (Fin (n + 1)) ℝ} (hdy : P.riccatiOdeF (packSv (S t) (v t)) t = .ok dy)
    (hder' : ∀ i j, HasDerivAt (fun s => packSv (S s) (v s) i j) (dy i j) t)
    (hdet : (1 + S t * (e t).C).det ≠ 0) :
    MD (fun s => (e s).Aᵀ * ((1 + S s * (e s).C)⁻¹ * (S s * (e s).A)) + (e s).J) 0 t ∧
    VD (fun s => (e s).Aᵀ *ᵥ ((1 + S s * (e s).C)⁻¹ *ᵥ (v s - S s *ᵥ (e s).b)) + (e s).eta) 0 t := by
  unfold CLQT.bwpassFwOdeF at hdx
  simp only [bind_ok] at hdx
  obtain ⟨Y, hY, hdx⟩ := hdx
  rw [unpack_packABCEJ] at hdx
  simp only [pure, Except.pure, Except.ok.injEq] at hdx
  subst hdx
  unfold CLQT.riccatiOdeF at hdy
  simp only [unpack_packSv, hY, bind, Except.bind, pure, Except.pure, Except.ok.injEq] at hdy
  subst hdy
  obtain ⟨hA, hb, hC', heta, hJ'⟩ := md_elem hder
  obtain ⟨hS, hv⟩ := md_sv.1 hder'
  refine flow_fw_core (M := (P.H t)ᵀ * P.X t * P.H t) (h := ((P.H t)ᵀ * P.X t) *ᵥ P.r t) (F := P.F t) (G := P.L t * Y)
    (c := P.c t) ?_ hC (hA.of_eq ?_) (hb.of_eq ?_) (hC'.of_eq ?_) (heta.of_eq ?_) (hJ'.of_eq ?_) hS (hv.of_eq ?_) hdet
  · simp only [transpose_mul, hX, transpose_transpose, Matrix.mul_assoc]
  all_goals simp only [Matrix.mul_assoc, Matrix.mulVec_mulVec, Matrix.neg_mulVec]

/-- The state obtained from the forward and backward value functions solves the closed-loop equation. -/
theorem flow_x {P : CLQT n m ℝ} {A C : ℝ → Matrix (Fin n) (Fin n) ℝ} {b : ℝ → Fin n → ℝ}
    {dx : Matrix (Fin n) (Fin (2 * n + 1)) ℝ} (hdx : P.fwdbwdOdeF (packABC (A t) (b t) (C t)) t = .ok dx)
    (hder : ∀ i j, HasDerivAt (fun s => packABC (A s) (b s) (C s) i j) (dx i j) t) {S : ℝ → Matrix (Fin n) (Fin n) ℝ}
    {v : ℝ → Fin n → ℝ} {dy : Matrix (Fin n) (Fin (n + 1)) ℝ} (hdy : P.riccatiOdeF (packSv (S t) (v t)) t = .ok dy)
    (hder' : ∀ i j, HasDerivAt (fun s => packSv (S s) (v s) i j) (dy i j) t)
    (hdet : (1 + C t * S t).det ≠ 0) :
    ∃ Y, solvePos (P.U t) (P.L t)ᵀ = .ok Y ∧ VD (fun s => (1 + C s * S s)⁻¹ *ᵥ (b s + C s *ᵥ v s))
      (P.F t *ᵥ ((1 + C t * S t)⁻¹ *ᵥ (b t + C t *ᵥ v t)) +
        P.L t *ᵥ (-(Y * S t) *ᵥ ((1 + C t * S t)⁻¹ *ᵥ (b t + C t *ᵥ v t)) + Y *ᵥ v t) + P.c t) t := by
  unfold CLQT.fwdbwdOdeF at hdx
  simp only [bind_ok] at hdx
  obtain ⟨Y, hY, hdx⟩ := hdx
  simp only [unpack_packABC, pure, Except.pure, Except.ok.injEq] at hdx
  subst hdx
  unfold CLQT.riccatiOdeF at hdy
  simp only [unpack_packSv, hY, bind, Except.bind, pure, Except.pure, Except.ok.injEq] at hdy
  subst hdy
  obtain ⟨-, hb, hC⟩ := md_abc hder
  obtain ⟨hS, hv⟩ := md_sv.1 hder'
  refine ⟨Y, hY, ?_⟩
  have hQ := ((MD.const (t := t) (1 : Matrix (Fin n) (Fin n) ℝ)).add (hC.mul hS)).inv hdet
  rw [zero_add] at hQ
  refine (hQ.mulVec (hb.add (hC.mulVec hv))).of_eq ?_
  have hQ1 := Matrix.nonsing_inv_mul (1 + C t * S t) (isUnit_iff_ne_zero.2 hdet)
  have hQ2 := Matrix.mul_nonsing_inv (1 + C t * S t) (isUnit_iff_ne_zero.2 hdet)
  generalize (1 + C t * S t)⁻¹ = Q at *
  obtain ⟨x, hx⟩ : ∃ x, x = Q *ᵥ (b t + C t *ᵥ v t) := ⟨_, rfl⟩
  have hz : b t = x + C t *ᵥ (S t *ᵥ x) - C t *ᵥ v t := by
    have : (1 + C t * S t) *ᵥ x = b t + C t *ᵥ v t := by
      rw [hx, Matrix.mulVec_mulVec, hQ2, Matrix.one_mulVec]
    rw [Matrix.add_mulVec, Matrix.one_mulVec, ← Matrix.mulVec_mulVec] at this
    rw [this]
    abel
  rw [Matrix.neg_mulVec, ← Matrix.mulVec_mulVec, ← hx]
  rw [← Matrix.mulVec_mulVec, ← Matrix.mulVec_neg, ← Matrix.mulVec_add]
  have hfin : ∀ y w, y = (1 + C t * S t) *ᵥ w → Q *ᵥ y = w := by
    rintro y w rfl
    rw [Matrix.mulVec_mulVec, hQ1, Matrix.one_mulVec]
  refine hfin _ _ ?_
  rw [hz]
  generalize P.F t = F
  generalize P.c t = c
  simp only [Matrix.sub_mulVec, Matrix.add_mulVec, Matrix.mulVec_sub, Matrix.mulVec_add, ← Matrix.mulVec_mulVec,
    Matrix.neg_mulVec, Matrix.mulVec_neg, Matrix.one_mulVec]
  abel

end Verif
