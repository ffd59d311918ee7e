import Verif.Model.CLQT

/-! Packing and unpacking of ODE states. -/

namespace Verif

open Matrix

variable {n : ℕ} {K : Type}

section
variable [Zero K]

theorem unpack_packABCEJ (e : Elem n K) : unpackABCEJ (packABCEJ e) = e := by
  cases e with
  | mk A b C eta J =>
    unfold unpackABCEJ packABCEJ
    congr 1
    · ext i j
      simp
    · ext i
      have h1 : ¬(3 * n < n) := by omega
      have h2 : ¬(3 * n < 2 * n) := by omega
      simp [h1, h2]
    · ext i j
      have h2 : n + j.1 < 2 * n := by omega
      simp [h2]
    · ext i
      have h1 : ¬(3 * n + 1 < n) := by omega
      have h2 : ¬(3 * n + 1 < 2 * n) := by omega
      simp [h1, h2]
    · ext i j
      have h1 : ¬(2 * n + j.1 < n) := by omega
      have h3 : 2 * n + j.1 < 3 * n := by omega
      simp [h1, h3]

theorem pack_unpackABCEJ (x : Matrix (Fin n) (Fin (3 * n + 2)) K) : packABCEJ (unpackABCEJ x) = x := by
  ext i j
  unfold unpackABCEJ packABCEJ
  simp only [of_apply]
  split_ifs with h1 h2 h3 h4 h5
  · rfl
  · congr 1; ext; simp; omega
  · congr 1; ext; simp; omega
  · congr 1; ext; simp; omega
  · congr 1; ext; simp; omega
  · omega

theorem unpack_packPsiphi (Psi : Matrix (Fin n) (Fin n) K) (phi : Fin n → K) :
    unpackPsiphi (packPsiphi Psi phi) = (Psi, phi) := by
  unfold unpackPsiphi packPsiphi
  refine Prod.ext ?_ ?_
  · ext i j
    simp
  · ext i
    simp

theorem pack_unpackPsiphi (x : Matrix (Fin n) (Fin (n + 1)) K) : packPsiphi (unpackPsiphi x).1 (unpackPsiphi x).2 = x := by
  ext i j
  unfold unpackPsiphi packPsiphi
  simp only [of_apply]
  split_ifs with h1 h2
  · rfl
  · congr 1; ext; simp; omega
  · omega

theorem unpack_packSv (S : Matrix (Fin n) (Fin n) K) (v : Fin n → K) : unpackSv (packSv S v) = (S, v) :=
  unpack_packPsiphi S v

theorem pack_unpackSv (x : Matrix (Fin n) (Fin (n + 1)) K) : packSv (unpackSv x).1 (unpackSv x).2 = x :=
  pack_unpackPsiphi x

theorem unpack_packABC (A : Matrix (Fin n) (Fin n) K) (b : Fin n → K) (C : Matrix (Fin n) (Fin n) K) :
    unpackABC (packABC A b C) = (A, b, C) := by
  unfold unpackABC packABC
  refine Prod.ext ?_ (Prod.ext ?_ ?_)
  · ext i j
    simp
  · ext i
    have h1 : ¬(2 * n < n) := by omega
    simp [h1]
  · ext i j
    have h2 : n + j.1 < 2 * n := by omega
    simp [h2]

theorem pack_unpackABC (x : Matrix (Fin n) (Fin (2 * n + 1)) K) :
    packABC (unpackABC x).1 (unpackABC x).2.1 (unpackABC x).2.2 = x := by
  ext i j
  unfold unpackABC packABC
  simp only [of_apply]
  split_ifs with h1 h2 h3
  · rfl
  · congr 1; ext; simp; omega
  · congr 1; ext; simp; omega
  · omega

end

end Verif
