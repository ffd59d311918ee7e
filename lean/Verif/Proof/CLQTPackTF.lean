import Verif.Model.CLQTPackTF
import Verif.Proof.CLQTPack

/-! The packing functions of the TensorFlow code agree with those of the numpy code. -/

namespace Verif

variable {n : ℕ} {K : Type} [Zero K]

theorem append_val {α : Type} {a b : ℕ} (f : Fin a → α) (g : Fin b → α) (j : Fin (a + b)) :
    Fin.append f g j = if h : j.1 < a then f ⟨j.1, h⟩ else g ⟨j.1 - a, by omega⟩ := by
  refine Fin.addCases (fun i => ?_) (fun i => ?_) j
  · simp
  · simp

theorem packABCEJTF_eq (e : Elem n K) : packABCEJTF e = packABCEJ e := by
  ext i j
  simp only [packABCEJTF, packABCEJ, Matrix.of_apply, append_val, Fin.val_cast]
  have := j.2
  split_ifs <;> first | rfl | omega | (congr 2 <;> omega) | skip

theorem packPsiphiTF_eq (Psi : Matrix (Fin n) (Fin n) K) (phi : Fin n → K) : packPsiphiTF Psi phi = packPsiphi Psi phi := by
  ext i j
  simp only [packPsiphiTF, packPsiphi, Matrix.of_apply, append_val]
  split_ifs <;> first | rfl | omega

theorem packSvTF_eq (S : Matrix (Fin n) (Fin n) K) (v : Fin n → K) : packSvTF S v = packSv S v := packPsiphiTF_eq S v

theorem packABCTF_eq (A : Matrix (Fin n) (Fin n) K) (b : Fin n → K) (C : Matrix (Fin n) (Fin n) K) :
    packABCTF A b C = packABC A b C := by
  ext i j
  simp only [packABCTF, packABC, Matrix.of_apply, append_val, Fin.val_cast]
  have := j.2
  split_ifs <;> first | rfl | omega

end Verif
